import Verif.Model.SignalSteps
import Verif.Spec.SignalSteps
import Verif.Props.Signals
/- Where a change of the handled signals can be. -/
namespace G3.Props
open G3 G3.Spec

/-- The places of the call: `a` is done, `b` is not. -/
inductive SgAt (e : SigEnv) (d0 : Int → Disp) (s0 : SigState) (S : List Int) : SgState → Prop
  | giving (a b : List Int) (s : SgState) (hg : s0.gSignals = a ++ b)
      (ht : s.todo = b.map .restore ++ .choose S :: if e.off then [] else S.map .install)
      (hd : ∀ n, s.sig.disp n = if n ∈ a then d0 n else s0.disp n)
      (hs : ∀ n, s.sig.saved n = if n ∈ a then none else s0.saved n)
      (hG : s.sig.gSignals = s0.gSignals)
      (hc : s.calls = (a.filter fun n => (s0.saved n).isSome).map fun n => (n, d0 n)) : SgAt e d0 s0 S s
  | given (a : List Int) (x : Int) (b : List Int) (s : SgState) (hg : s0.gSignals = a ++ x :: b) (hx : s0.saved x = some (d0 x))
      (ho : e.off = false)
      (ht : s.todo = .forget x :: (b.map .restore ++ .choose S :: S.map .install))
      (hd : ∀ n, s.sig.disp n = if n ∈ a ++ [x] then d0 n else s0.disp n)
      (hs : ∀ n, s.sig.saved n = if n ∈ a then none else s0.saved n)
      (hG : s.sig.gSignals = s0.gSignals)
      (hc : s.calls = ((a ++ [x]).filter fun n => (s0.saved n).isSome).map fun n => (n, d0 n)) : SgAt e d0 s0 S s
  | taking (a b : List Int) (s : SgState) (hg : (if e.off then [] else S) = a ++ b)
      (ht : s.todo = b.map .install)
      (hd : ∀ n, s.sig.disp n = if n ∈ a ∧ e.accepts n = true then .g3log else d0 n)
      (hs : ∀ n, s.sig.saved n = if n ∈ a ∧ e.accepts n = true then some (d0 n) else none)
      (hG : s.sig.gSignals = S)
      (hc : s.calls = changeCalls d0 (fun n => (s0.saved n).isSome) s0.gSignals a) : SgAt e d0 s0 S s
  | taken (a : List Int) (x : Int) (b : List Int) (s : SgState) (hg : (if e.off then [] else S) = a ++ x :: b) (hx : e.accepts x = true)
      (ht : s.todo = .record x (d0 x) :: b.map .install)
      (hd : ∀ n, s.sig.disp n = if n ∈ a ++ [x] ∧ e.accepts n = true then .g3log else d0 n)
      (hs : ∀ n, s.sig.saved n = if n ∈ a ∧ e.accepts n = true then some (d0 n) else none)
      (hG : s.sig.gSignals = S)
      (hc : s.calls = changeCalls d0 (fun n => (s0.saved n).isSome) s0.gSignals (a ++ [x])) : SgAt e d0 s0 S s

theorem sgAt_start (e : SigEnv) (d0 : Int → Disp) (s0 : SigState) (S : List Int) : SgAt e d0 s0 S (sgCall e s0 S) :=
  .giving [] s0.gSignals _ rfl rfl (fun n => by simp [sgCall]) (fun n => by simp [sgCall]) rfl rfl

theorem sgAt_step {e : SigEnv} {d0 : Int → Disp} {s0 : SigState} (h : Clean e d0 s0) (hN : s0.gSignals.Nodup) {S : List Int} (hS : S.Nodup)
    {s s' : SgState} (hi : SgAt e d0 s0 S s) (hst : sgStep e s = some s') : SgAt e d0 s0 S s' := by
  obtain ⟨⟨disp, saved, gs⟩, todo, calls⟩ := s
  cases hi with
  | giving a b _ hg ht hd hs hG hc =>
    simp only at ht hd hs hG hc
    subst ht
    cases b with
    | nil =>
      simp only [List.map_nil, List.nil_append, sgStep, Option.some.injEq] at hst
      subst hst
      rw [List.append_nil] at hg
      have hall : ∀ n, s0.saved n ≠ none → n ∈ a := by
        intro n hn
        cases hsn : s0.saved n with
        | none => exact absurd hsn hn
        | some d => rw [← hg]; exact (h.taken n d hsn).2.2.1
      refine .taking [] (if e.off then [] else S) _ rfl ?_ ?_ ?_ rfl ?_
      · show (if e.off = true then [] else S.map SgTask.install) = _
        split <;> rfl
      · intro n
        show disp n = _
        rw [hd]
        simp only [List.not_mem_nil, false_and, if_false]
        split
        · rfl
        · rename_i hna
          exact h.rest n (by by_cases hh : s0.saved n = none; exact hh; exact absurd (hall n hh) hna)
      · intro n
        show saved n = _
        rw [hs]
        simp only [List.not_mem_nil, false_and, if_false]
        split
        · rfl
        · rename_i hna
          by_cases hh : s0.saved n = none
          · exact hh
          · exact absurd (hall n hh) hna
      · show calls = _
        rw [hc, changeCalls, hg, List.map_nil, List.append_nil]
    | cons x b =>
      have hxa : x ∉ a := by
        rw [hg] at hN
        intro hxa
        exact (List.nodup_append.mp hN).2.2 x hxa x (by simp) rfl
      simp only [List.map_cons, List.cons_append, sgStep] at hst
      have hsx : saved x = s0.saved x := by rw [hs, if_neg hxa]
      by_cases ho : e.off = true
      · rw [if_pos ho] at hst
        cases hst
        have hx0 := h.off ho x
        refine .giving (a ++ [x]) b _ (by rw [hg]; simp) rfl ?_ ?_ hG ?_
        · intro n
          show disp n = _
          rw [hd]
          by_cases hn : n = x
          · subst hn; rw [if_neg hxa, if_pos (by simp)]; exact h.rest n hx0
          · simp [hn]
        · intro n
          show saved n = _
          rw [hs]
          by_cases hn : n = x
          · subst hn; rw [if_neg hxa, if_pos (by simp)]; exact hx0
          · simp [hn]
        · show calls = _
          rw [hc, List.filter_append]; simp [hx0]
      · rw [if_neg ho, hsx] at hst
        cases hx : s0.saved x with
        | none =>
          rw [hx] at hst
          cases hst
          refine .giving (a ++ [x]) b _ (by rw [hg]; simp) rfl ?_ ?_ hG ?_
          · intro n
            show disp n = _
            rw [hd]
            by_cases hn : n = x
            · subst hn; rw [if_neg hxa, if_pos (by simp)]; exact h.rest n hx
            · simp [hn]
          · intro n
            show saved n = _
            rw [hs]
            by_cases hn : n = x
            · subst hn; rw [if_neg hxa, if_pos (by simp)]; exact hx
            · simp [hn]
          · show calls = _
            rw [hc, List.filter_append]; simp [hx]
        | some d =>
          rw [hx] at hst
          obtain ⟨_, h2, _, h4⟩ := h.taken x d hx
          subst h2
          simp only [h4, if_true] at hst
          cases hst
          refine .given a x b _ hg hx (by simpa using ho) (by show _ = _; simp [ho]) ?_ hs hG ?_
          · intro n
            show setAt disp x (d0 x) n = _
            by_cases hn : n = x
            · subst hn; rw [setAt_same, if_pos (by simp)]
            · rw [setAt_other _ _ hn, hd]; simp [hn]
          · show calls ++ [(x, d0 x)] = _
            rw [hc, List.filter_append]; simp [hx]
  | given a x b _ hg hx ho ht hd hs hG hc =>
    simp only at ht hd hs hG hc
    subst ht
    simp only [sgStep, Option.some.injEq] at hst
    subst hst
    refine .giving (a ++ [x]) b _ (by rw [hg]; simp) (by show _ = _; simp [ho]) hd ?_ hG hc
    intro n
    show setAt saved x none n = _
    by_cases hn : n = x
    · subst hn; rw [setAt_same, if_pos (by simp)]
    · rw [setAt_other _ _ hn, hs]; simp [hn]
  | taking a b _ hg ht hd hs hG hc =>
    simp only at ht hd hs hG hc
    subst ht
    cases b with
    | nil => simp [sgStep] at hst
    | cons x b =>
      have hxa : x ∉ a := by
        have : (if e.off then [] else S).Nodup := by split; exact List.nodup_nil; exact hS
        rw [hg] at this
        intro hxa
        exact (List.nodup_append.mp this).2.2 x hxa x (by simp) rfl
      simp only [List.map_cons, sgStep] at hst
      by_cases hacc : e.accepts x = true
      · rw [if_pos hacc] at hst
        cases hst
        refine .taken a x b _ hg hacc ?_ ?_ hs hG ?_
        · show SgTask.record x (disp x) :: _ = _
          rw [hd, if_neg (fun hh => hxa hh.1)]
        · intro n
          show setAt disp x .g3log n = _
          by_cases hn : n = x
          · subst hn; rw [setAt_same, if_pos ⟨by simp, hacc⟩]
          · rw [setAt_other _ _ hn, hd]; simp [hn]
        · show calls ++ [(x, .g3log)] = _
          rw [hc]; simp [changeCalls]
      · rw [if_neg hacc] at hst
        cases hst
        refine .taking (a ++ [x]) b _ (by rw [hg]; simp) rfl ?_ ?_ hG ?_
        · intro n
          show disp n = _
          rw [hd]
          by_cases hn : n = x
          · subst hn; simp [hacc]
          · simp [hn]
        · intro n
          show saved n = _
          rw [hs]
          by_cases hn : n = x
          · subst hn; simp [hacc]
          · simp [hn]
        · show calls ++ [(x, .g3log)] = _
          rw [hc]; simp [changeCalls]
  | taken a x b _ hg hx ht hd hs hG hc =>
    simp only at ht hd hs hG hc
    subst ht
    simp only [sgStep, Option.some.injEq] at hst
    subst hst
    refine .taking (a ++ [x]) b _ (by rw [hg]; simp) rfl hd ?_ hG hc
    intro n
    show setAt saved x (some (d0 x)) n = _
    by_cases hn : n = x
    · subst hn; rw [setAt_same, if_pos ⟨by simp, hx⟩]
    · rw [setAt_other _ _ hn, hs]; simp [hn]

theorem sgAt_steps {e : SigEnv} {d0 : Int → Disp} {s0 : SigState} (h : Clean e d0 s0) (hN : s0.gSignals.Nodup) {S : List Int} (hS : S.Nodup)
    {k : Nat} {s : SgState} (hk : sgSteps e (sgCall e s0 S) k = some s) : SgAt e d0 s0 S s := by
  induction k generalizing s with
  | zero => cases hk; exact sgAt_start e d0 s0 S
  | succ k ih =>
    simp only [sgSteps, Option.bind_eq_some_iff] at hk
    obtain ⟨s1, h1, h2⟩ := hk
    exact sgAt_step h hN hS (ih h1) h2

/-- The set in force names every signal once. -/
theorem Orderly.nodup {e : SigEnv} {d0 : Int → Disp} {s : SigState} (h : Orderly e d0 s) : s.gSignals.Nodup := by
  obtain ⟨first, ops, hops, rfl⟩ := h
  have hinst : ∀ (l : List Int) (s : SigState), (l.foldl (installOne e) s).gSignals = s.gSignals := by
    intro l
    induction l with
    | nil => intro s; rfl
    | cons x l ih => intro s; rw [List.foldl_cons, ih]; unfold installOne; split <;> rfl
  have hins : ∀ s, (installSignalHandler e s).gSignals = s.gSignals := by
    intro s; unfold installSignalHandler; split; rfl; exact hinst _ _
  have hone : ∀ s n, (restoreSignalHandler e s n).gSignals = s.gSignals := by
    intro s n; unfold restoreSignalHandler; split; rfl; split <;> rfl
  have hov : ∀ s l, (overrideSetupSignals e s l).gSignals = l := by
    intro s l; unfold overrideSetupSignals; rw [hins]
  have key : ∀ (ops : List SigOp) (s : SigState), s.gSignals.Nodup → (∀ op ∈ ops, op.ok) → (ops.foldl (sigDo e) s).gSignals.Nodup := by
    intro ops
    induction ops with
    | nil => intro s hs _; exact hs
    | cons op ops ih =>
      intro s hs ho
      refine ih _ ?_ (fun o hm => ho o (List.mem_cons_of_mem _ hm))
      have hop := ho op (by simp)
      cases op with
      | override l => show (overrideSetupSignals e s l).gSignals.Nodup; rw [hov]; exact hop
      | restore n => show (restoreSignalHandler e s n).gSignals.Nodup; rw [hone]; exact hs
      | toDefault =>
        show (restoreFatalHandlingToDefault e s).gSignals.Nodup
        unfold restoreFatalHandlingToDefault
        split
        · exact hs
        · rw [hov]; decide
  refine key ops _ ?_ hops
  cases first
  · show kSignals.Nodup; decide
  · show (installSignalHandler e (SigState.start d0)).gSignals.Nodup
    rw [hins]; show kSignals.Nodup; decide

/-! ### Running on -/

/-- How many steps are left at most. -/
def sgLeft : List SgTask → Nat
  | [] => 0
  | .restore _ :: r => 2 + sgLeft r
  | .install _ :: r => 2 + sgLeft r
  | _ :: r => 1 + sgLeft r

theorem sgStep_left {e : SigEnv} {s s' : SgState} (h : sgStep e s = some s') : sgLeft s'.todo < sgLeft s.todo := by
  obtain ⟨sig, todo, calls⟩ := s
  cases todo with
  | nil => simp [sgStep] at h
  | cons t r =>
    cases t with
    | restore n =>
      simp only [sgStep] at h
      split at h
      · cases h; simp [sgLeft]
      · split at h <;> cases h <;> simp [sgLeft]
    | install n =>
      simp only [sgStep] at h
      split at h <;> cases h <;> simp [sgLeft]
    | forget n => simp only [sgStep] at h; cases h; simp [sgLeft]
    | choose l => simp only [sgStep] at h; cases h; simp [sgLeft]
    | record n o => simp only [sgStep] at h; cases h; simp [sgLeft]

theorem sgStep_some {e : SigEnv} {s : SgState} (h : s.todo ≠ []) : ∃ s', sgStep e s = some s' := by
  obtain ⟨sig, todo, calls⟩ := s
  cases todo with
  | nil => exact absurd rfl h
  | cons t r =>
    cases t with
    | restore n =>
      simp only [sgStep]
      split
      · exact ⟨_, rfl⟩
      · split <;> exact ⟨_, rfl⟩
    | install n => simp only [sgStep]; split <;> exact ⟨_, rfl⟩
    | forget n => exact ⟨_, rfl⟩
    | choose l => exact ⟨_, rfl⟩
    | record n o => exact ⟨_, rfl⟩

theorem sgSteps_snoc {e : SigEnv} {s s1 s2 : SgState} {k : Nat} (h1 : sgSteps e s k = some s1) (h2 : sgStep e s1 = some s2) :
    sgSteps e s (k + 1) = some s2 := by rw [sgSteps, h1]; exact h2

theorem sgSteps_finish {e : SigEnv} {s s1 : SgState} {k : Nat} (h : sgSteps e s k = some s1) :
    ∃ k' s', k ≤ k' ∧ sgSteps e s k' = some s' ∧ s'.todo = [] := by
  generalize hm : sgLeft s1.todo = m
  induction m using Nat.strongRecOn generalizing s1 k with
  | _ m ih =>
    by_cases ht : s1.todo = []
    · exact ⟨k, s1, Nat.le_refl _, h, ht⟩
    · obtain ⟨s2, h2⟩ := sgStep_some (e := e) ht
      obtain ⟨k', s', a, b, c⟩ := ih _ (hm ▸ sgStep_left h2) (sgSteps_snoc h h2) rfl
      exact ⟨k', s', by omega, b, c⟩

theorem sgSteps_prefix {e : SigEnv} {s s' : SgState} {k : Nat} (h : sgSteps e s k = some s') {j : Nat} (hj : j ≤ k) :
    ∃ s1, sgSteps e s j = some s1 := by
  induction k generalizing s' with
  | zero => exact ⟨s', by rw [Nat.le_zero.mp hj]; exact h⟩
  | succ k ih =>
    by_cases he : j = k + 1
    · exact ⟨s', he ▸ h⟩
    · simp only [sgSteps, Option.bind_eq_some_iff] at h
      obtain ⟨s1, h1, _⟩ := h
      exact ih h1 (by omega)

end G3.Props
