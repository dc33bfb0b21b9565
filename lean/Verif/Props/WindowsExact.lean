import Verif.Props.Windows
import Verif.Spec.WinHandlers
import Mathlib.Data.List.Induction
/-
C63 and C64 for all histories.
-/
namespace G3.Props
open G3 G3.Spec

/-! ### C63 -/

theorem known_listed (c : Nat) : isKnownException c = true ↔ ∃ x, (c, x) ∈ fatalExceptions := by
  unfold isKnownException
  rw [Option.isSome_iff_exists]
  exact ⟨fun ⟨x, h⟩ => ⟨x, (table_mem c x).mp h⟩, fun ⟨x, h⟩ => ⟨x, (table_mem c x).mpr h⟩⟩

instance (u t n : Nat) : Decidable (reachesThread u t n) := by unfold reachesThread; infer_instance

theorem reaches_pw (u t n : Nat) : reachesThread u t n ↔ (t = u ∨ processWide n = true) := by
  unfold reachesThread processWide WIN_SIGABRT
  simp only [Bool.or_eq_true, decide_eq_true_eq]
  constructor
  · rintro (h | h); exact .inl h.symm; exact .inr h
  · rintro (h | h); exact .inl h.symm; exact .inr h

theorem restore_sig (s : WinState) (v t n : Nat) (hn : n ∈ winSignals) :
    (winRestore s v).sig t n = if t = v ∨ processWide n = true then .dfl else s.sig t n := by
  simp only [winRestore]
  rw [foldl_sig]
  have : n ∈ [WIN_SIGABRT, 8, 11, 4, 15] := by
    simp only [winSignals, List.mem_cons, List.not_mem_nil, or_false] at hn ⊢
    tauto
  simp only [this, true_and]

/-- The three kinds of operations. -/
theorem winStep_kinds (s : WinState) (op : WinOp) (n : Nat) (hn : n ∈ winSignals) :
    (∃ u, takesFor u op ∧ (∀ v, ¬ putsBackOn v op) ∧ (∀ v, takesFor v op → v = u) ∧
      (∀ t, (winStep s op).installed t = (decide (t = u) || s.installed t)) ∧
      ∀ t, (winStep s op).sig t n = if s.installed u = false ∧ reachesThread u t n then .g3log else s.sig t n) ∨
    (∃ v, putsBackOn v op ∧ (∀ u, ¬ takesFor u op) ∧ (winStep s op).installed = s.installed ∧
      ∀ t, (winStep s op).sig t n = if reachesThread v t n then .dfl else s.sig t n) ∨
    ((∀ u, ¬ takesFor u op) ∧ (∀ v, ¬ putsBackOn v op) ∧ (winStep s op).installed = s.installed ∧ ∀ t, (winStep s op).sig t n = s.sig t n) := by
  have hins : ∀ u t, (winInstallThread s u).sig t n = if s.installed u = false ∧ reachesThread u t n then .g3log else s.sig t n := by
    intro u t
    rw [install_sig]
    simp only [hn, true_and, reaches_pw]
  have hres : ∀ v t, (winRestore s v).sig t n = if reachesThread v t n then .dfl else s.sig t n := by
    intro v t
    rw [restore_sig s v t n hn]
    simp only [reaches_pw]
  cases op with
  | log u => exact .inl ⟨u, rfl, fun v h => h, fun v h => h.symm, fun t => install_flag s u t, fun t => hins u t⟩
  | installCrash u => exact .inl ⟨u, rfl, fun v h => h, fun v h => h.symm, fun t => install_flag s u t, fun t => hins u t⟩
  | signal m p => exact .inr (.inr ⟨fun u h => h, fun v h => h, rfl, fun t => rfl⟩)
  | vectored u c p =>
    by_cases hk : isKnownException c = true
    · refine .inr (.inl ⟨u, ⟨rfl, (known_listed c).mp hk⟩, fun u h => h, ?_, ?_⟩)
      · show (winVectored s u c p).installed = _
        unfold winVectored; rw [if_neg (by simp [hk])]; rfl
      · intro t
        show (winVectored s u c p).sig t n = _
        unfold winVectored; rw [if_neg (by simp [hk])]; exact hres u t
    · have hst : winStep s (.vectored u c p) = s := by
        show winVectored s u c p = s
        unfold winVectored; rw [if_pos (by simpa using hk)]
      rw [hst]
      exact .inr (.inr ⟨fun u h => h, fun v h => hk ((known_listed c).mpr h.2), rfl, fun t => rfl⟩)
  | unexpected u c p => exact .inr (.inl ⟨u, rfl, fun u h => h, rfl, fun t => hres u t⟩)
  | exit u l id =>
    refine .inr (.inl ⟨u, rfl, fun u h => h, ?_, ?_⟩)
    · show (winExit s u l id).installed = _
      unfold winExit; dsimp only; split <;> rfl
    · intro t
      show (winExit s u l id).sig t n = _
      unfold winExit; dsimp only; split <;> exact hres u t

theorem handledAfter_snoc (ops : List WinOp) (op : WinOp) (t n : Nat) :
    handledAfter (ops ++ [op]) t n ↔ (∃ u, takesFor u op ∧ (∀ x ∈ ops, ¬ takesFor u x) ∧ reachesThread u t n) ∨
      handledAfter ops t n ∧ ∀ v, putsBackOn v op → ¬ reachesThread v t n := by
  constructor
  · rintro ⟨a, o, b, u, h1, h2, h3, h4, h5⟩
    rcases List.eq_nil_or_concat b with rfl | ⟨b', o', rfl⟩
    · obtain ⟨rfl, h⟩ := List.append_inj' h1 rfl
      cases h
      exact .inl ⟨u, h2, h3, h4⟩
    · have h6 : ops ++ [op] = (a ++ o :: b') ++ [o'] := by rw [h1]; simp
      obtain ⟨rfl, h⟩ := List.append_inj' h6 rfl
      cases h
      exact .inr ⟨⟨a, o, b', u, rfl, h2, h3, h4, fun x hx => h5 x (by simp [hx])⟩, h5 op (by simp)⟩
  · rintro (⟨u, h2, h3, h4⟩ | ⟨⟨a, o, b, u, rfl, h2, h3, h4, h5⟩, h6⟩)
    · exact ⟨ops, op, [], u, by simp, h2, h3, h4, by simp⟩
    · refine ⟨a, o, b ++ [op], u, by simp, h2, h3, h4, ?_⟩
      intro x hx
      rcases List.mem_append.mp hx with hx | hx
      · exact h5 x hx
      · rw [List.mem_singleton.mp hx]; exact h6

/-- C63: after every history, exactly the signals for which `handledAfter` holds are handled by g3log; every other one has the default action if
handlers have been put back where it is concerned, and its original action otherwise. -/
theorem C63_exact (f : WinFilter) (sig : Nat → Nat → Disp) (ops : List WinOp) (t n : Nat) (hn : n ∈ [15, 22, 8, 11, 4]) (h0 : sig t n ≠ .g3log) :
    ((winRun (winStart f sig) ops).sig t n = .g3log ↔ handledAfter ops t n) ∧
    (¬ handledAfter ops t n → (winRun (winStart f sig) ops).sig t n =
      (open Classical in if ∃ x ∈ ops, ∃ v, putsBackOn v x ∧ reachesThread v t n then .dfl else sig t n)) := by
  have hn' : n ∈ winSignals := hn
  have main : (∀ u, (winRun (winStart f sig) ops).installed u = true ↔ ∃ x ∈ ops, takesFor u x) ∧
      (handledAfter ops t n → (winRun (winStart f sig) ops).sig t n = .g3log) ∧
      (¬ handledAfter ops t n → (winRun (winStart f sig) ops).sig t n =
        (open Classical in if ∃ x ∈ ops, ∃ v, putsBackOn v x ∧ reachesThread v t n then .dfl else sig t n)) := by
    induction ops using List.reverseRecOn with
    | nil =>
      refine ⟨fun u => by simp [winRun, winStart], ?_, fun _ => by simp [winRun, winStart]⟩
      rintro ⟨a, o, b, u, h, _⟩
      simp at h
    | append_singleton ops op ih =>
      obtain ⟨i1, i2, i3⟩ := ih
      have hrun : winRun (winStart f sig) (ops ++ [op]) = winStep (winRun (winStart f sig) ops) op := by simp [winRun]
      rw [hrun]
      generalize winRun (winStart f sig) ops = s at *
      rcases winStep_kinds s op n hn' with ⟨u, k1, k2, k3, k4, k5⟩ | ⟨v, k1, k2, k3, k4⟩ | ⟨k1, k2, k3, k4⟩
      · refine ⟨?_, ?_, ?_⟩
        · intro u'
          rw [k4]
          simp only [Bool.or_eq_true, decide_eq_true_eq, i1, List.mem_append, List.mem_singleton]
          constructor
          · rintro (rfl | ⟨x, hx, hx'⟩)
            · exact ⟨op, .inr rfl, k1⟩
            · exact ⟨x, .inl hx, hx'⟩
          · rintro ⟨x, hx | rfl, hx'⟩
            · exact .inr ⟨x, hx, hx'⟩
            · exact .inl (k3 _ hx')
        · intro hh
          rw [k5]
          rcases (handledAfter_snoc ops op t n).mp hh with ⟨u', j1, j2, j3⟩ | ⟨j1, _⟩
          · cases k3 _ j1
            rw [if_pos]
            refine ⟨?_, j3⟩
            by_cases hi : s.installed u = true
            · obtain ⟨x, hx, hx'⟩ := (i1 u).mp hi
              exact absurd hx' (j2 x hx)
            · simpa using hi
          · rw [i2 j1]; split <;> rfl
        · intro hh
          have hold : ¬ handledAfter ops t n := fun h => hh ((handledAfter_snoc ops op t n).mpr (.inr ⟨h, fun v hv => absurd hv (k2 v)⟩))
          rw [k5, if_neg, i3 hold]
          · congr 1
            apply propext
            constructor
            · rintro ⟨x, hx, v, hv⟩; exact ⟨x, by simp [hx], v, hv⟩
            · rintro ⟨x, hx, v, hv⟩
              rcases List.mem_append.mp hx with hx | hx
              · exact ⟨x, hx, v, hv⟩
              · rw [List.mem_singleton.mp hx] at hv; exact absurd hv.1 (k2 v)
          · rintro ⟨c1, c2⟩
            apply hh
            refine (handledAfter_snoc ops op t n).mpr (.inl ⟨u, k1, ?_, c2⟩)
            intro x hx hx'
            have := (i1 u).mpr ⟨x, hx, hx'⟩
            rw [c1] at this
            cases this
      · refine ⟨?_, ?_, ?_⟩
        · intro u'
          rw [k3, i1]
          constructor
          · rintro ⟨x, hx, hx'⟩; exact ⟨x, by simp [hx], hx'⟩
          · rintro ⟨x, hx, hx'⟩
            rcases List.mem_append.mp hx with hx | hx
            · exact ⟨x, hx, hx'⟩
            · rw [List.mem_singleton.mp hx] at hx'; exact absurd hx' (k2 u')
        · intro hh
          rcases (handledAfter_snoc ops op t n).mp hh with ⟨u', j1, _⟩ | ⟨j1, j2⟩
          · exact absurd j1 (k2 u')
          · rw [k4, if_neg (j2 v k1)]; exact i2 j1
        · intro hh
          rw [k4]
          by_cases hr : reachesThread v t n
          · rw [if_pos hr, if_pos ⟨op, by simp, v, k1, hr⟩]
          · have hone : ∀ v', putsBackOn v' op → ¬ reachesThread v' t n := by
              intro v' hv' hr'
              apply hr
              have : v' = v := by
                cases op with
                | log _ => exact absurd hv' (fun h => h)
                | installCrash _ => exact absurd hv' (fun h => h)
                | signal _ _ => exact absurd hv' (fun h => h)
                | vectored _ _ _ => exact hv'.1.symm.trans k1.1
                | unexpected _ _ _ => exact Eq.trans (Eq.symm hv') k1
                | exit _ _ _ => exact Eq.trans (Eq.symm hv') k1
              exact this ▸ hr'
            have hold : ¬ handledAfter ops t n := fun h => hh ((handledAfter_snoc ops op t n).mpr (.inr ⟨h, hone⟩))
            rw [if_neg hr, i3 hold]
            congr 1
            apply propext
            constructor
            · rintro ⟨x, hx, v, hv⟩; exact ⟨x, by simp [hx], v, hv⟩
            · rintro ⟨x, hx, v', hv⟩
              rcases List.mem_append.mp hx with hx | hx
              · exact ⟨x, hx, v', hv⟩
              · rw [List.mem_singleton.mp hx] at hv; exact absurd hv.2 (hone v' hv.1)
      · refine ⟨?_, ?_, ?_⟩
        · intro u'
          rw [k3, i1]
          constructor
          · rintro ⟨x, hx, hx'⟩; exact ⟨x, by simp [hx], hx'⟩
          · rintro ⟨x, hx, hx'⟩
            rcases List.mem_append.mp hx with hx | hx
            · exact ⟨x, hx, hx'⟩
            · rw [List.mem_singleton.mp hx] at hx'; exact absurd hx' (k1 u')
        · intro hh
          rcases (handledAfter_snoc ops op t n).mp hh with ⟨u', j1, _⟩ | ⟨j1, j2⟩
          · exact absurd j1 (k1 u')
          · rw [k4]; exact i2 j1
        · intro hh
          have hold : ¬ handledAfter ops t n := fun h => hh ((handledAfter_snoc ops op t n).mpr (.inr ⟨h, fun v hv => absurd hv (k2 v)⟩))
          rw [k4, i3 hold]
          congr 1
          apply propext
          constructor
          · rintro ⟨x, hx, v, hv⟩; exact ⟨x, by simp [hx], v, hv⟩
          · rintro ⟨x, hx, v, hv⟩
            rcases List.mem_append.mp hx with hx | hx
            · exact ⟨x, hx, v, hv⟩
            · rw [List.mem_singleton.mp hx] at hv; exact absurd hv.1 (k2 v)
  refine ⟨⟨fun h => ?_, main.2.1⟩, main.2.2⟩
  by_cases hh : handledAfter ops t n
  · exact hh
  · rw [main.2.2 hh] at h
    split at h
    · cases h
    · exact absurd h h0

/-- Thread 1 logs, an exception is handled on thread 1, thread 2 logs: SIGSEGV is handled on thread 2, not on thread 1; SIGTERM on both. -/
example : handledAfter [.log 1, .vectored 1 0xC0000005 7, .log 2] 2 11 ∧ handledAfter [.log 1, .vectored 1 0xC0000005 7, .log 2] 1 15 := by
  refine ⟨⟨[.log 1, .vectored 1 0xC0000005 7], .log 2, [], 2, rfl, rfl, ?_, .inl rfl, by simp⟩,
    ⟨[.log 1, .vectored 1 0xC0000005 7], .log 2, [], 2, rfl, rfl, ?_, .inr (.inl rfl), by simp⟩⟩ <;>
  · intro x hx
    simp only [List.mem_cons, List.not_mem_nil, or_false] at hx
    rcases hx with rfl | rfl <;> simp [takesFor]

/-! ### C64 -/

/-- C64: the crash handler is installed any number of times, on any threads, and put back once or more: only after a single installation the filter of the program is
back and no vectored handler is left; after k installations the filter of g3log stays and k - 1 vectored handlers do. -/
theorem C64_exact (s : WinState) (hv : s.vectored = []) (ts : List Nat) (hts : ts ≠ []) (t : Nat) (rs : List Nat) :
    let s1 := rs.foldl winRestore (winRestore (ts.foldl winInstallCrash s) t)
    s1.filter = (if ts.length = 1 then s.filter else .g3log) ∧
    s1.vectored = (List.range (ts.length - 1)).map (s.nextHandle + ·) := by
  have hkeep : ∀ (s : WinState) (u : Nat), (winInstallThread s u).filter = s.filter ∧ (winInstallThread s u).vectored = s.vectored ∧
      (winInstallThread s u).nextHandle = s.nextHandle := by
    intro s u; unfold winInstallThread; split <;> exact ⟨rfl, rfl, rfl⟩
  have hinst : ∀ (ts : List Nat), ts ≠ [] → (ts.foldl winInstallCrash s).filter = .g3log ∧
      (ts.foldl winInstallCrash s).prevFilter = (if ts.length = 1 then s.filter else .g3log) ∧
      (ts.foldl winInstallCrash s).vectored = (List.range ts.length).map (s.nextHandle + ·) ∧
      (ts.foldl winInstallCrash s).vhandle = some (s.nextHandle + (ts.length - 1)) ∧
      (ts.foldl winInstallCrash s).nextHandle = s.nextHandle + ts.length := by
    intro ts
    induction ts using List.reverseRecOn with
    | nil => intro h; exact absurd rfl h
    | append_singleton ts u ih =>
      intro _
      rw [List.foldl_append]
      show (winInstallCrash (ts.foldl winInstallCrash s) u).filter = _ ∧ _
      by_cases hts : ts = []
      · subst hts
        obtain ⟨a, b, c⟩ := hkeep s u
        refine ⟨rfl, ?_, ?_, ?_, ?_⟩
        · show (winInstallThread s u).filter = _; rw [a]; rfl
        · show (winInstallThread s u).vectored ++ [(winInstallThread s u).nextHandle] = _; rw [b, c, hv]; simp
        · show some (winInstallThread s u).nextHandle = _; rw [c]; rfl
        · show (winInstallThread s u).nextHandle + 1 = _; rw [c]; rfl
      · obtain ⟨j1, j2, j3, j4, j5⟩ := ih hts
        obtain ⟨a, b, c⟩ := hkeep (ts.foldl winInstallCrash s) u
        have hl : ts.length ≠ 0 := fun h => hts (List.length_eq_zero_iff.mp h)
        have hl2 : (ts ++ [u]).length = ts.length + 1 := by simp
        refine ⟨rfl, ?_, ?_, ?_, ?_⟩
        · show (winInstallThread (ts.foldl winInstallCrash s) u).filter = _
          rw [a, j1, if_neg (by omega)]
        · show (winInstallThread (ts.foldl winInstallCrash s) u).vectored ++ [(winInstallThread (ts.foldl winInstallCrash s) u).nextHandle] = _
          rw [b, c, j3, j5, hl2, List.range_succ, List.map_append]; rfl
        · show some (winInstallThread (ts.foldl winInstallCrash s) u).nextHandle = _
          rw [c, j5, hl2]; rfl
        · show (winInstallThread (ts.foldl winInstallCrash s) u).nextHandle + 1 = _
          rw [c, j5, hl2]; omega
  obtain ⟨j1, j2, j3, j4, j5⟩ := hinst ts hts
  have hl : ts.length ≠ 0 := fun h => hts (List.length_eq_zero_iff.mp h)
  have hr1 : (winRestore (ts.foldl winInstallCrash s) t).filter = (if ts.length = 1 then s.filter else .g3log) := j2
  have hr2 : (winRestore (ts.foldl winInstallCrash s) t).vectored = (List.range (ts.length - 1)).map (s.nextHandle + ·) := by
    show (match (ts.foldl winInstallCrash s).vhandle with
      | none => (ts.foldl winInstallCrash s).vectored
      | some h => (ts.foldl winInstallCrash s).vectored.filter (fun k => decide (k ≠ h))) = _
    rw [j3, j4]
    obtain ⟨m, hm⟩ : ∃ m, ts.length = m + 1 := ⟨ts.length - 1, by omega⟩
    rw [hm]
    dsimp only
    rw [List.range_succ, List.map_append, List.filter_append]
    simp only [Nat.add_sub_cancel, List.map_cons, List.map_nil, ne_eq, not_true_eq_false, decide_false, Bool.false_eq_true, not_false_eq_true,
      List.filter_cons_of_neg, List.filter_nil, List.append_nil]
    rw [List.filter_eq_self]
    intro k hk
    obtain ⟨i, hi, rfl⟩ := List.mem_map.mp hk
    have := List.mem_range.mp hi
    simp only [decide_not, Bool.not_eq_true', decide_eq_false_iff_not]
    omega
  have hr3 : (winRestore (ts.foldl winInstallCrash s) t).prevFilter = (if ts.length = 1 then s.filter else .g3log) := j2
  have hr4 : (winRestore (ts.foldl winInstallCrash s) t).vhandle = some (s.nextHandle + (ts.length - 1)) := j4
  generalize winRestore (ts.foldl winInstallCrash s) t = s0 at *
  induction rs generalizing s0 with
  | nil => exact ⟨hr1, hr2⟩
  | cons r rs ih =>
    refine ih (winRestore s0 r) hr3 ?_ hr3 hr4
    show (match s0.vhandle with
      | none => s0.vectored
      | some h => s0.vectored.filter (fun k => decide (k ≠ h))) = _
    rw [hr4, hr2]
    simp only
    rw [List.filter_eq_self]
    intro k hk
    obtain ⟨i, hi, rfl⟩ := List.mem_map.mp hk
    have := List.mem_range.mp hi
    simp only [ne_eq, decide_not, Bool.not_eq_true', decide_eq_false_iff_not]
    omega

/-- Three installations: two handlers are left. -/
example : ((List.range (([4, 5, 4] : List Nat).length - 1)).map (7 + ·)) = [7, 8] ∧ ([4, 5, 4] : List Nat) ≠ [] := by decide

end G3.Props
