import Verif.Spec.OtherWorker
import Mathlib.Data.List.Induction
/-
C137: removeSink and the worker on which it is called.
-/
namespace G3.Props
open G3 G3.Spec

variable {M : Type}

theorem owRun_snoc (ls : List (OwLabel M)) (l : OwLabel M) : owRun (ls ++ [l]) = owStep (owRun ls) l := by
  simp [owRun, List.foldl_append]

theorem owMade_snoc (ls : List (OwLabel M)) (l : OwLabel M) (w k : Nat) (b : List (OwLabel M)) :
    OwMade (ls ++ [l]) w k b ↔ (∃ b', b = b' ++ [l] ∧ OwMade ls w k b') ∨ (b = [] ∧ l = .add w ∧ ls.countP isOwAdd = k) := by
  constructor
  · rintro ⟨a, h, h1⟩
    rcases List.eq_nil_or_concat b with rfl | ⟨b', y, rfl⟩
    · obtain ⟨rfl, h4⟩ := List.append_inj' h rfl
      exact .inr ⟨rfl, by simpa using h4, h1⟩
    · rw [List.concat_eq_append, ← List.cons_append, ← List.append_assoc] at h
      obtain ⟨rfl, h4⟩ := List.append_inj' h rfl
      obtain rfl : l = y := by simpa using h4
      exact .inl ⟨b', List.concat_eq_append, a, rfl, h1⟩
  · rintro (⟨b', rfl, a, rfl, h1⟩ | ⟨rfl, rfl, h1⟩)
    · exact ⟨a, by simp, h1⟩
    · exact ⟨ls, rfl, h1⟩

theorem owMade_lt {ls : List (OwLabel M)} {w k : Nat} {b : List (OwLabel M)} (h : OwMade ls w k b) : k < ls.countP isOwAdd := by
  obtain ⟨a, rfl, rfl⟩ := h
  rw [List.countP_append, List.countP_cons]
  simp [isOwAdd]

/-- A sink is made once. -/
theorem owMade_unique {ls : List (OwLabel M)} : ∀ {w v k : Nat} {b c : List (OwLabel M)}, OwMade ls w k b → OwMade ls v k c → w = v ∧ b = c := by
  induction ls using List.reverseRecOn with
  | nil => rintro w v k b c ⟨a, h, -⟩; simp at h
  | append_singleton ls l ih =>
    intro w v k b c h1 h2
    rcases (owMade_snoc ..).1 h1 with ⟨b', rfl, h1'⟩ | ⟨rfl, rfl, h3⟩ <;> rcases (owMade_snoc ..).1 h2 with ⟨c', rfl, h2'⟩ | ⟨rfl, h4, h5⟩
    · obtain ⟨rfl, rfl⟩ := ih h1' h2'; exact ⟨rfl, rfl⟩
    · have := owMade_lt h1'; omega
    · have := owMade_lt h2'; omega
    · exact ⟨by simpa using h4, rfl⟩

theorem owHas_snoc (ls : List (OwLabel M)) (l : OwLabel M) (k : Nat) :
    OwHas (ls ++ [l]) k ↔ (OwHas ls k ∧ ∀ v, l ≠ .remove v k) ∨ ((∃ w, l = .add w) ∧ ls.countP isOwAdd = k) := by
  constructor
  · rintro ⟨w, b, h, h1⟩
    rcases (owMade_snoc ..).1 h with ⟨b', rfl, h2⟩ | ⟨rfl, rfl, h3⟩
    · refine .inl ⟨⟨w, b', h2, fun v hv => h1 v (List.mem_append_left _ hv)⟩, ?_⟩
      rintro v rfl
      exact h1 v (by simp)
    · exact .inr ⟨⟨w, rfl⟩, h3⟩
  · rintro (⟨⟨w, b, h, h1⟩, h2⟩ | ⟨⟨w, rfl⟩, h3⟩)
    · refine ⟨w, b ++ [l], (owMade_snoc ..).2 (.inl ⟨b, rfl, h⟩), fun v hv => ?_⟩
      rcases List.mem_append.1 hv with hv | hv
      · exact h1 v hv
      · exact h2 v (List.mem_singleton.1 hv).symm
    · exact ⟨w, [], (owMade_snoc ..).2 (.inr ⟨rfl, rfl, h3⟩), by simp⟩

theorem owAttached_snoc (ls : List (OwLabel M)) (l : OwLabel M) (w k : Nat) :
    OwAttached (ls ++ [l]) w k ↔
      (OwAttached ls w k ∧ l ≠ .removeAll w ∧ (l = .remove w k → ¬ OwHas ls k)) ∨ (l = .add w ∧ ls.countP isOwAdd = k) := by
  constructor
  · rintro ⟨b, h, h1, h2⟩
    rcases (owMade_snoc ..).1 h with ⟨b', rfl, h3⟩ | ⟨rfl, rfl, h3⟩
    · refine .inl ⟨⟨b', h3, fun hv => h1 (List.mem_append_left _ hv), fun c d hd => h2 c (d ++ [l]) (by rw [hd]; simp)⟩, ?_, ?_⟩
      · rintro rfl; exact h1 (by simp)
      · rintro rfl ⟨v, e, h4, h5⟩
        obtain ⟨-, rfl⟩ := owMade_unique h3 h4
        obtain ⟨u, hu⟩ := h2 b' [] rfl
        exact h5 u hu
    · exact .inr ⟨rfl, h3⟩
  · rintro (⟨⟨b, h, h1, h2⟩, h3, h4⟩ | ⟨rfl, h3⟩)
    · refine ⟨b ++ [l], (owMade_snoc ..).2 (.inl ⟨b, rfl, h⟩), ?_, ?_⟩
      · intro hv
        rcases List.mem_append.1 hv with hv | hv
        · exact h1 hv
        · exact h3 (List.mem_singleton.1 hv).symm
      · intro c d hd
        rcases List.eq_nil_or_concat d with rfl | ⟨d', y, rfl⟩
        · obtain ⟨rfl, h5⟩ := List.append_inj' hd rfl
          by_contra hn
          exact h4 (by simpa using h5) ⟨w, b, h, fun v hv => hn ⟨v, hv⟩⟩
        · rw [List.concat_eq_append, ← List.cons_append, ← List.append_assoc] at hd
          obtain ⟨rfl, -⟩ := List.append_inj' hd rfl
          exact h2 c d' rfl
    · exact ⟨[], (owMade_snoc ..).2 (.inr ⟨rfl, rfl, h3⟩), by simp, by simp⟩

/-- What the operations say about the state. -/
structure OwInv (ls : List (OwLabel M)) : Prop where
  made : (owRun ls).made = ls.countP isOwAdd
  has : ∀ k, k ∈ (owRun ls).handles ↔ OwHas ls k
  att : ∀ w k, k ∈ (owRun ls).sinks w ↔ OwAttached ls w k
  ord : ∀ w, ((owRun ls).sinks w).Pairwise (· < ·)

theorem owAttached_lt {ls : List (OwLabel M)} {w k : Nat} (h : OwAttached ls w k) : k < ls.countP isOwAdd := by
  obtain ⟨b, h, -⟩ := h; exact owMade_lt h

theorem owInv (ls : List (OwLabel M)) : OwInv ls := by
  induction ls using List.reverseRecOn with
  | nil =>
    refine ⟨rfl, fun k => ?_, fun w k => ?_, fun w => ?_⟩
    · constructor
      · intro h; simp [owRun] at h
      · rintro ⟨w, b, ⟨a, h, -⟩, -⟩; simp at h
    · constructor
      · intro h; simp [owRun] at h
      · rintro ⟨b, ⟨a, h, -⟩, -⟩; simp at h
    · simp [owRun]
  | append_singleton ls l ih =>
    obtain ⟨h1, h2, h3, h4⟩ := ih
    cases l with
    | add v =>
      refine ⟨?_, fun k => ?_, fun w k => ?_, fun w => ?_⟩
      · rw [owRun_snoc]; simp [owStep, h1, isOwAdd]
      · rw [owRun_snoc, owHas_snoc]; simp [owStep, h2, h1, eq_comm]
      · rw [owRun_snoc, owAttached_snoc]
        by_cases hw : w = v
        · subst hw; simp [owStep, h3, h1, eq_comm]
        · simp [owStep, Function.update_of_ne hw, h3, Ne.symm hw]
      · rw [owRun_snoc]
        by_cases hw : w = v
        · subst hw
          simp only [owStep, Function.update_self]
          rw [List.pairwise_append]
          refine ⟨h4 w, by simp, fun a ha b hb => ?_⟩
          obtain rfl : b = _ := by simpa using hb
          rw [h1]; exact owAttached_lt ((h3 w a).1 ha)
        · simp only [owStep, Function.update_of_ne hw]; exact h4 w
    | remove v j =>
      by_cases hj : j ∈ (owRun ls).handles
      · have hj' := (h2 j).1 hj
        refine ⟨?_, fun k => ?_, fun w k => ?_, fun w => ?_⟩
        · rw [owRun_snoc]; simp [owStep, hj, h1, isOwAdd]
        · rw [owRun_snoc, owHas_snoc]
          by_cases hk : k = j
          · subst hk; simp [owStep, hj]
          · have hk' : j ≠ k := fun h => hk h.symm
            simp [owStep, hj, h2, hk, hk']
        · rw [owRun_snoc, owAttached_snoc]
          by_cases hw : w = v
          · subst hw
            by_cases hk : k = j
            · subst hk; simp [owStep, hj, hj']
            · have hk' : j ≠ k := fun h => hk h.symm
              simp [owStep, hj, h3, hk, hk']
          · simp [owStep, hj, Function.update_of_ne hw, h3, Ne.symm hw]
        · rw [owRun_snoc]
          by_cases hw : w = v
          · subst hw; simp only [owStep, hj, if_true, Function.update_self]; exact (h4 w).filter _
          · simp only [owStep, hj, if_true, Function.update_of_ne hw]; exact h4 w
      · have hj' : ¬ OwHas ls j := fun h => hj ((h2 j).2 h)
        have he : owRun (ls ++ [.remove v j]) = owRun ls := by rw [owRun_snoc]; simp [owStep, hj]
        refine ⟨?_, fun k => ?_, fun w k => ?_, fun w => ?_⟩
        · rw [he, h1]; simp [isOwAdd]
        · rw [he, owHas_snoc, h2]
          constructor
          · intro h; refine .inl ⟨h, ?_⟩; rintro u hu; cases hu; exact hj' h
          · rintro (h | ⟨⟨u, hu⟩, -⟩)
            · exact h.1
            · cases hu
        · rw [he, owAttached_snoc, h3]
          constructor
          · intro h; refine .inl ⟨h, by simp, ?_⟩; rintro hu; cases hu; exact hj'
          · rintro (h | ⟨hu, -⟩)
            · exact h.1
            · cases hu
        · rw [he]; exact h4 w
    | removeAll v =>
      refine ⟨?_, fun k => ?_, fun w k => ?_, fun w => ?_⟩
      · rw [owRun_snoc]; simp [owStep, h1, isOwAdd]
      · rw [owRun_snoc, owHas_snoc]; simp [owStep, h2]
      · rw [owRun_snoc, owAttached_snoc]
        by_cases hw : w = v
        · subst hw; simp [owStep]
        · simp [owStep, Function.update_of_ne hw, h3, Ne.symm hw]
      · rw [owRun_snoc]
        by_cases hw : w = v
        · subst hw; simp [owStep]
        · simp only [owStep, Function.update_of_ne hw]; exact h4 w
    | log v m =>
      refine ⟨?_, fun k => ?_, fun w k => ?_, fun w => ?_⟩
      · rw [owRun_snoc]; simp [owStep, h1, isOwAdd]
      · rw [owRun_snoc, owHas_snoc]; simp [owStep, h2]
      · rw [owRun_snoc, owAttached_snoc]; simp [owStep, h3]
      · rw [owRun_snoc]; exact h4 w

/-- For every sequence of operations: exactly which sinks a worker has, and in which order; and exactly which handles the program has. -/
theorem C137_exact (ls : List (OwLabel M)) :
    (∀ w k, k ∈ (owRun ls).sinks w ↔ OwAttached ls w k) ∧ (∀ w, ((owRun ls).sinks w).Pairwise (· < ·)) ∧
    ∀ k, k ∈ (owRun ls).handles ↔ OwHas ls k :=
  ⟨(owInv ls).att, (owInv ls).ord, (owInv ls).has⟩

/-- A message goes, once, to exactly the sinks that are attached to its worker then, in the order in which they were made. -/
theorem C137_log (ls : List (OwLabel M)) (w : Nat) (m : M) :
    ∃ ks : List Nat, (owRun (ls ++ [.log w m])).got = (owRun ls).got ++ ks.map (·, m) ∧ ks.Pairwise (· < ·) ∧ ∀ k, k ∈ ks ↔ OwAttached ls w k := by
  refine ⟨(owRun ls).sinks w, ?_, (owInv ls).ord w, (owInv ls).att w⟩
  rw [owRun_snoc]; rfl

/-- No other operation gives a sink anything. -/
theorem C137_silent (ls : List (OwLabel M)) (l : OwLabel M) (hl : ∀ w m, l ≠ .log w m) : (owRun (ls ++ [l])).got = (owRun ls).got := by
  rw [owRun_snoc]
  cases l with
  | log w m => exact absurd rfl (hl w m)
  | remove w k => by_cases h : k ∈ (owRun ls).handles <;> simp [owStep, h]
  | _ => rfl

/-- A sink that is attached to no worker, and has been made, gets nothing any more and is never attached again. -/
theorem ow_gone {ls : List (OwLabel M)} {k : Nat} (hk : k < ls.countP isOwAdd) (hn : ∀ w, ¬ OwAttached ls w k) (ls' : List (OwLabel M)) :
    (∀ w, ¬ OwAttached (ls ++ ls') w k) ∧ owGot (owRun (ls ++ ls')) k = owGot (owRun ls) k := by
  induction ls' using List.reverseRecOn with
  | nil => rw [List.append_nil]; exact ⟨hn, rfl⟩
  | append_singleton ls' l ih =>
    obtain ⟨h1, h2⟩ := ih
    rw [← List.append_assoc]
    constructor
    · intro w h
      rcases (owAttached_snoc ..).1 h with h | ⟨-, h⟩
      · exact h1 w h.1
      · rw [List.countP_append] at h; omega
    · by_cases hl : ∃ w m, l = .log w m
      · obtain ⟨w, m, rfl⟩ := hl
        obtain ⟨ks, h3, -, h4⟩ := C137_log (ls ++ ls') w m
        have h5 : (ks.map (·, m)).filter (fun p => decide (p.1 = k)) = [] := by
          rw [List.filter_eq_nil_iff]
          intro p hp
          obtain ⟨j, hj, rfl⟩ := List.mem_map.1 hp
          have : j ≠ k := by rintro rfl; exact h1 w ((h4 j).1 hj)
          simpa using this
        rw [← h2]
        simp only [owGot]
        rw [h3, List.filter_append, h5, List.append_nil]
      · rw [← h2]
        simp only [owGot]
        rw [C137_silent _ l (fun w m h => hl ⟨w, m, h⟩)]

/-- The property if the worker is the one for which the sink was made. Missing: C137_negation. -/
theorem C137_statement_partial {ls : List (OwLabel M)} {w k : Nat} {b : List (OwLabel M)} (h : OwMade ls w k b) (hh : OwHas ls k) :
    OwRemoved ls w k := by
  intro ls'
  have hs : ls ++ .remove w k :: ls' = (ls ++ [.remove w k]) ++ ls' := by simp
  have hg := (ow_gone (ls := ls ++ [.remove w k]) (k := k) ?_ ?_ ls').2
  · rw [hs, hg]
    simp only [owGot]
    rw [C137_silent _ _ (by intro w m h; cases h)]
  · rw [List.countP_append]; have := owMade_lt h; omega
  · intro v hv
    rcases (owAttached_snoc ..).1 hv with ⟨⟨c, h1, -⟩, -, h2⟩ | ⟨h1, -⟩
    · obtain ⟨rfl, -⟩ := owMade_unique h h1
      exact h2 rfl hh
    · cases h1

/-- removeAllSinks: a sink made for the worker gets nothing any more, whether the program still has its handle or has given it to another worker. -/
theorem C137_all {ls : List (OwLabel M)} {w k : Nat} {b : List (OwLabel M)} (h : OwMade ls w k b) (ls' : List (OwLabel M)) :
    owGot (owRun (ls ++ .removeAll w :: ls')) k = owGot (owRun ls) k := by
  have hs : ls ++ .removeAll w :: ls' = (ls ++ [.removeAll w]) ++ ls' := by simp
  have hg := (ow_gone (ls := ls ++ [.removeAll w]) (k := k) ?_ ?_ ls').2
  · rw [hs, hg]
    simp only [owGot]
    rw [C137_silent _ _ (by intro w m h; cases h)]
  · rw [List.countP_append]; have := owMade_lt h; omega
  · intro v hv
    rcases (owAttached_snoc ..).1 hv with ⟨⟨c, h1, -⟩, h2, -⟩ | ⟨h1, -⟩
    · obtain ⟨rfl, -⟩ := owMade_unique h h1
      exact h2 rfl
    · cases h1

example : owGot (owRun ([.add 0, .add 1, .log 0 7, .remove 1 0] ++ .removeAll 0 :: [.log 0 8] : List (OwLabel Nat))) 0 = [7] :=
  (C137_all (w := 0) (b := [.add 1, .log 0 7, .remove 1 0]) ⟨[], rfl, rfl⟩ [.log 0 8]).trans (by decide +kernel)

/-- If removeSink was called on another worker, the sink stays, and no removeSink can remove it any more: it is attached until its worker removes all. -/
theorem C137_stuck {ls : List (OwLabel M)} {w v k : Nat} (h : OwAttached ls w k) (hv : v ≠ w) (ls' : List (OwLabel M)) :
    OwAttached (ls ++ .remove v k :: ls') w k ↔ .removeAll w ∉ ls' := by
  obtain ⟨b, ⟨a, rfl, h0⟩, h1, h2⟩ := h
  constructor
  · rintro ⟨c, h3, h4, -⟩
    have h5 : OwMade (a ++ .add w :: b ++ .remove v k :: ls') w k (b ++ .remove v k :: ls') := ⟨a, by simp, h0⟩
    obtain ⟨-, rfl⟩ := owMade_unique h3 h5
    exact fun hm => h4 (by simp [hm])
  · intro hn
    refine ⟨b ++ .remove v k :: ls', ⟨a, by simp, h0⟩, by simp [h1, hn], fun c d hd => ?_⟩
    rcases List.append_eq_append_iff.1 hd with ⟨x, rfl, hx⟩ | ⟨x, rfl, hx⟩
    · cases x with
      | nil => simp only [List.nil_append, List.cons.injEq, OwLabel.remove.injEq] at hx; exact absurd hx.1.1 hv
      | cons y x =>
        simp only [List.cons_append, List.cons.injEq] at hx
        exact ⟨v, by simp [hx.1]⟩
    · cases x with
      | nil => simp only [List.nil_append, List.cons.injEq, OwLabel.remove.injEq] at hx; exact absurd hx.1.1.symm hv
      | cons y x =>
        simp only [List.cons_append, List.cons.injEq] at hx
        obtain ⟨rfl, -⟩ := hx
        exact h2 c x rfl

/-- The documentation promises too much: a sink made for worker 0 whose handle is given to worker 1 still gets what is logged. -/
theorem C137_negation : OwHas ([.add 0] : List (OwLabel Nat)) 0 ∧ ¬ OwRemoved ([.add 0] : List (OwLabel Nat)) 1 0 := by
  refine ⟨⟨0, [], ⟨[], rfl, rfl⟩, by simp⟩, fun h => ?_⟩
  have := h [.log 0 7]
  revert this
  decide +kernel

/-- Two workers with two sinks and one: the hypotheses of C137_statement_partial and C137_stuck. -/
example : OwRemoved ([.add 0, .add 1, .add 0, .log 0 7] : List (OwLabel Nat)) 0 2 :=
  C137_statement_partial (b := [.log 0 7]) ⟨[.add 0, .add 1], rfl, rfl⟩ ⟨0, [.log 0 7], ⟨[.add 0, .add 1], rfl, rfl⟩, by simp⟩

example : OwAttached ([.add 0, .add 1, .remove 1 0, .remove 0 0, .log 0 7] : List (OwLabel Nat)) 0 0 :=
  (C137_stuck (ls := [.add 0, .add 1]) (v := 1) ((C137_exact _).1 0 0 |>.1 (by decide +kernel)) (by decide) [.remove 0 0, .log 0 7]).2 (by simp)

example : (owRun ([.add 0, .add 1, .add 0, .log 0 7, .remove 0 0, .log 0 8, .log 1 9, .removeAll 0, .log 0 5] : List (OwLabel Nat))).got =
    [(0, 7), (2, 7), (2, 8), (1, 9)] := by decide +kernel

end G3.Props
