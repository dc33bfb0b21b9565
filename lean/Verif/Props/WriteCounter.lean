import Verif.Model.WriteCounter
import Mathlib.Data.List.Induction
/-
C39 with the counter of entries as a machine number.
-/
namespace G3.Props
open G3

theorem counterRun_snoc {M : Type} (W N : Nat) (ms : List M) (m : M) :
    CounterSink.run W N (ms ++ [m]) = (CounterSink.run W N ms).write W N m := by
  simp [CounterSink.run, List.foldl_append]

/-- C39: with a counter that wraps at W, after any number of entries exactly the last `(n % W) % N` of them are not in the file, the others are, in order:
never more than N - 1, before and after the counter has wrapped. -/
theorem C39_wrap {M : Type} (W N : Nat) (hW : 1 ≤ W) (hN : 1 ≤ N) (ms : List M) :
    (CounterSink.run W N ms).file = ms.take (ms.length - (ms.length % W) % N) ∧
    (CounterSink.run W N ms).buf = ms.drop (ms.length - (ms.length % W) % N) ∧
    (CounterSink.run W N ms).buf.length = (ms.length % W) % N ∧ (CounterSink.run W N ms).buf.length ≤ N - 1 := by
  have key : (CounterSink.run W N ms).counter = ms.length % W ∧
      (CounterSink.run W N ms).file ++ (CounterSink.run W N ms).buf = ms ∧
      (CounterSink.run W N ms).buf.length = (ms.length % W) % N := by
    induction ms using List.reverseRecOn with
    | nil => simp [CounterSink.run]
    | append_singleton ms m ih =>
      obtain ⟨h1, h2, h3⟩ := ih
      rw [counterRun_snoc]
      generalize CounterSink.run W N ms = s at h1 h2 h3
      have hc : (s.counter + 1) % W = (ms ++ [m]).length % W := by
        rw [h1, List.length_append, List.length_singleton, Nat.mod_add_mod]
      unfold CounterSink.write
      simp only [hc]
      split
      · rename_i h0
        refine ⟨rfl, ?_, ?_⟩
        · rw [List.append_nil, ← List.append_assoc, h2]
        · rw [h0]; rfl
      · rename_i h0
        refine ⟨rfl, ?_, ?_⟩
        · rw [← List.append_assoc, h2]
        · rw [List.length_append, List.length_singleton, h3]
          rw [List.length_append, List.length_singleton] at h0 ⊢
          have hlt := Nat.mod_lt ms.length hW
          have hw : (ms.length + 1) % W = ms.length % W + 1 := by
            rcases Nat.lt_or_ge (ms.length % W + 1) W with h4 | h4
            · rw [← Nat.mod_add_mod, Nat.mod_eq_of_lt h4]
            · exfalso
              apply h0
              have h5 : ms.length % W + 1 = W := by omega
              rw [← Nat.mod_add_mod, h5, Nat.mod_self, Nat.zero_mod]
          rw [hw] at h0 ⊢
          generalize ms.length % W = r at h0 ⊢
          have h6 := Nat.mod_lt r hN
          rcases Nat.lt_or_ge (r % N + 1) N with h7 | h7
          · rw [← Nat.mod_add_mod r N 1, Nat.mod_eq_of_lt h7]
          · exfalso
            apply h0
            have h8 : r % N + 1 = N := by omega
            rw [← Nat.mod_add_mod, h8, Nat.mod_self]
  obtain ⟨-, h2, h3⟩ := key
  have hl : (CounterSink.run W N ms).file.length = ms.length - (ms.length % W) % N := by
    have h4 := congrArg List.length h2
    rw [List.length_append, h3] at h4
    omega
  refine ⟨?_, ?_, h3, ?_⟩
  · have h5 := congrArg (List.take (CounterSink.run W N ms).file.length) h2
    rw [List.take_left, hl] at h5
    exact h5
  · have h5 := congrArg (List.drop (CounterSink.run W N ms).file.length) h2
    rw [List.drop_left, hl] at h5
    exact h5
  · rw [h3]
    have := Nat.mod_lt (ms.length % W) hN
    omega

/-- C39: as long as the counter has not wrapped, that is what Verif.Model.FileSink says. -/
theorem C39_wrap_before {M : Type} (W N : Nat) (hN : 1 ≤ N) (ms : List M) (h : ms.length < W) :
    (CounterSink.run W N ms).buf.length = ms.length % N := by
  rw [(C39_wrap W N (by omega) hN ms).2.2.1, Nat.mod_eq_of_lt h]

/-- C39_wrap: a counter that wraps at 4, a transfer after every third entry: the wrapping brings one transfer early, and none is late. -/
example : (CounterSink.run 4 3 [1, 2, 3, 4, 5]).file = [1, 2, 3, 4] ∧ (CounterSink.run 4 3 [1, 2, 3, 4, 5]).buf = [5] := by decide

/-- C39_wrap_before: its hypothesis. -/
example : [1, 2, 3, 4, 5].length < 8 ∧ (CounterSink.run 8 3 [1, 2, 3, 4, 5]).buf = [4, 5] := by decide

end G3.Props
