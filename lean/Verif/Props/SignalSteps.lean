import Verif.Proofs.SignalSteps
/-
C114: the moments in the middle of a change of the handled signals.
-/
namespace G3.Props
open G3 G3.Spec

/-! ### The calls of the system -/

theorem sgStep_action {e : SigEnv} {d : Int → Disp} {s s' : SgState} (hi : ∀ n, s.sig.disp n = actionAfter e.accepts d s.calls n)
    (h : sgStep e s = some s') (n : Int) : s'.sig.disp n = actionAfter e.accepts d s'.calls n := by
  have key : ∀ (calls : List (Int × Disp)) (x : Int) (v : Disp),
      actionAfter e.accepts d (calls ++ [(x, v)]) n = if n = x ∧ e.accepts x = true then v else actionAfter e.accepts d calls n := by
    intro calls x v
    unfold actionAfter
    rw [List.filter_append]
    by_cases hx : n = x ∧ e.accepts x = true
    · rw [if_pos hx]
      have : ([(x, v)] : List (Int × Disp)).filter (fun c => c.1 == n && e.accepts c.1) = [(x, v)] := by simp [hx.1, hx.2]
      rw [this]; simp
    · rw [if_neg hx]
      have : ([(x, v)] : List (Int × Disp)).filter (fun c => c.1 == n && e.accepts c.1) = [] := by
        rw [List.filter_eq_nil_iff]
        intro c hc hcc
        rw [List.mem_singleton.mp hc] at hcc
        simp only [Bool.and_eq_true, beq_iff_eq] at hcc
        exact hx ⟨hcc.1.symm, hcc.2⟩
      rw [this, List.append_nil]
  obtain ⟨⟨disp, saved, gs⟩, todo, calls⟩ := s
  simp only at hi
  cases todo with
  | nil => simp [sgStep] at h
  | cons t r =>
    cases t with
    | restore x =>
      simp only [sgStep] at h
      split at h
      · cases h; exact hi n
      · split at h
        · cases h; exact hi n
        · cases h
          show (if e.accepts x = true then setAt disp x _ else disp) n = actionAfter _ _ (_ ++ _) n
          rw [key]
          by_cases ha : e.accepts x = true
          · rw [if_pos ha]
            by_cases hn : n = x
            · subst hn; rw [setAt_same, if_pos ⟨rfl, ha⟩]
            · rw [setAt_other _ _ hn, if_neg (fun hh => hn hh.1)]; exact hi n
          · rw [if_neg ha, if_neg (fun hh => ha hh.2)]; exact hi n
    | install x =>
      simp only [sgStep] at h
      by_cases ha : e.accepts x = true
      · rw [if_pos ha] at h
        cases h
        show setAt disp x _ n = actionAfter _ _ (_ ++ _) n
        rw [key]
        by_cases hn : n = x
        · subst hn; rw [setAt_same, if_pos ⟨rfl, ha⟩]
        · rw [setAt_other _ _ hn, if_neg (fun hh => hn hh.1)]; exact hi n
      · rw [if_neg ha] at h
        cases h
        show disp n = actionAfter _ _ (_ ++ _) n
        rw [key, if_neg (fun hh => ha hh.2)]; exact hi n
    | forget x => simp only [sgStep] at h; cases h; exact hi n
    | choose l => simp only [sgStep] at h; cases h; exact hi n
    | record x o => simp only [sgStep] at h; cases h; exact hi n

/-- C114: at every moment of the call the actions of all signals are what the calls of `sigaction` so far make them. From any state. -/
theorem C114_actions (e : SigEnv) (s0 : SigState) (S : List Int) (k : Nat) (s : SgState) (h : sgSteps e (sgCall e s0 S) k = some s) (n : Int) :
    s.sig.disp n = actionAfter e.accepts s0.disp s.calls n := by
  induction k generalizing s n with
  | zero => cases h; rfl
  | succ k ih =>
    simp only [sgSteps, Option.bind_eq_some_iff] at h
    obtain ⟨s1, h1, h2⟩ := h
    exact sgStep_action (fun n => ih s1 h1 n) h2 n

/-- Handled signals are those with a saved action. -/
theorem handled_iff {e : SigEnv} {d0 : Int → Disp} (hd : ∀ n, d0 n ≠ .g3log) {s : SigState} (h : Clean e d0 s) (n : Int) :
    (s.saved n).isSome = decide (s.disp n = .g3log) := by
  cases hs : s.saved n with
  | none => have := h.rest n hs; simp [this, hd n]
  | some d => simp [(h.taken n d hs).1]

theorem changeCalls_congr (d0 : Int → Disp) (p q : Int → Bool) (h : ∀ n, p n = q n) (l m : List Int) : changeCalls d0 p l m = changeCalls d0 q l m := by
  rw [show p = q from funext h]

/-- C114: which calls those are. At every moment they are the beginning of one list: first all handled signals get back their original actions, then
all signals of the new set are asked for. -/
theorem C114_order (e : SigEnv) (d0 : Int → Disp) (hd : ∀ n, d0 n ≠ .g3log) (s0 : SigState) (h : Orderly e d0 s0) (S : List Int) (hS : S.Nodup)
    (k : Nat) (s : SgState) (hk : sgSteps e (sgCall e s0 S) k = some s) :
    s.calls <+: changeCalls d0 (fun n => decide (s0.disp n = .g3log)) s0.gSignals (if e.off then [] else S) := by
  rw [changeCalls_congr d0 _ (fun n => (s0.saved n).isSome) (fun n => (handled_iff hd h.clean n).symm)]
  cases sgAt_steps h.clean h.nodup hS hk with
  | giving a b _ hg _ _ _ _ hc =>
    rw [hc, changeCalls, hg, List.filter_append, List.map_append, List.append_assoc]
    exact List.prefix_append _ _
  | given a x b _ hg _ _ _ _ _ _ hc =>
    rw [hc, changeCalls, hg, show a ++ x :: b = (a ++ [x]) ++ b by simp, List.filter_append _ b, List.map_append, List.append_assoc]
    exact List.prefix_append _ _
  | taking a b _ hg _ _ _ _ hc =>
    rw [hc, hg, changeCalls, changeCalls, List.map_append, ← List.append_assoc]
    exact List.prefix_append _ _
  | taken a x b _ hg _ _ _ _ _ hc =>
    rw [hc, hg, changeCalls, changeCalls, show a ++ x :: b = (a ++ [x]) ++ b by simp, List.map_append (l₂ := b), ← List.append_assoc]
    exact List.prefix_append _ _

/-- C114: the call always comes to its end; then all those calls have been made and the state is that of the call taken as one step (C43). -/
theorem C114_done (e : SigEnv) (d0 : Int → Disp) (hd : ∀ n, d0 n ≠ .g3log) (s0 : SigState) (h : Orderly e d0 s0) (S : List Int) (hS : S.Nodup) :
    (∀ k s, sgSteps e (sgCall e s0 S) k = some s → ∃ k' s', k ≤ k' ∧ sgSteps e (sgCall e s0 S) k' = some s' ∧ s'.todo = []) ∧
    ∀ k s, sgSteps e (sgCall e s0 S) k = some s → s.todo = [] →
      s.sig = overrideSetupSignals e s0 S ∧
      s.calls = changeCalls d0 (fun n => decide (s0.disp n = .g3log)) s0.gSignals (if e.off then [] else S) := by
  refine ⟨fun k s hk => sgSteps_finish hk, ?_⟩
  intro k s hk ht
  rw [changeCalls_congr d0 _ (fun n => (s0.saved n).isSome) (fun n => (handled_iff hd h.clean n).symm)]
  cases sgAt_steps h.clean h.nodup hS hk with
  | giving a b _ hg ht' _ _ _ hc => rw [ht'] at ht; simp at ht
  | given a x b _ hg _ _ ht' _ _ _ hc => rw [ht'] at ht; simp at ht
  | taken a x b _ hg _ ht' _ _ _ hc => rw [ht'] at ht; simp at ht
  | taking a b _ hg ht' hdd hs hG hc =>
    rw [ht'] at ht
    have hb : b = [] := by simpa using ht
    subst hb
    rw [List.append_nil] at hg
    subst hg
    refine ⟨?_, hc⟩
    obtain ⟨r1, r2, r3⟩ := restoreAll_clean h.clean
    unfold overrideSetupSignals installSignalHandler
    obtain ⟨⟨disp, saved, gs⟩, todo, calls⟩ := s
    simp only at hdd hs hG
    subst hG
    by_cases ho : e.off = true
    · rw [if_pos ho]
      simp only [ho, if_true, List.not_mem_nil, false_and, if_false] at hdd hs
      show SigState.mk disp saved gs = ⟨(restoreAll e s0).disp, (restoreAll e s0).saved, gs⟩
      rw [r1, show disp = d0 from funext hdd, show saved = (restoreAll e s0).saved from funext fun n => by rw [hs, r2]]
    · rw [if_neg ho]
      obtain ⟨i1, i2, i3⟩ := install_fold (e := e) (d0 := d0) gs hS (s := { restoreAll e s0 with gSignals := gs }) (fun n _ => r2 n)
        (fun n _ => by show (restoreAll e s0).disp n = _; rw [r1])
      simp only [ho, if_false, Bool.false_eq_true] at hdd hs
      show SigState.mk disp saved gs = gs.foldl (installOne e) { restoreAll e s0 with gSignals := gs }
      generalize gs.foldl (installOne e) { restoreAll e s0 with gSignals := gs } = t at i1 i2 i3 ⊢
      obtain ⟨td, ts, tg⟩ := t
      simp only at i1 i2 i3
      have e1 : td = disp := funext fun n => by rw [i1, hdd, r1]
      have e2 : ts = saved := funext fun n => by rw [i2, hs, r2]
      rw [e1, e2, i3]

/-! ### Signals in the middle of it -/

theorem restore_fold_weak {e : SigEnv} {d0 : Int → Disp} (ho : e.off = false) (l : List Int) {s : SigState}
    (h : ∀ n d, s.saved n = some d → d = d0 n ∧ e.accepts n = true) (n : Int) :
    (l.foldl (restoreSignalHandler e) s).disp n = if n ∈ l ∧ (s.saved n).isSome = true then d0 n else s.disp n := by
  induction l generalizing s with
  | nil => simp
  | cons x l ih =>
    rw [List.foldl_cons]
    have hstep : restoreSignalHandler e s x = match s.saved x with
        | none => s
        | some old => { s with disp := if e.accepts x then setAt s.disp x old else s.disp, saved := setAt s.saved x none } := by
      unfold restoreSignalHandler
      rw [ho]; rfl
    rw [hstep]
    cases hs : s.saved x with
    | none =>
      simp only
      rw [ih h]
      by_cases hn : n = x
      · subst hn; simp [hs]
      · simp [hn]
    | some d =>
      obtain ⟨h1, h2⟩ := h x d hs
      simp only [h2, if_true]
      rw [ih]
      · show (if n ∈ l ∧ (setAt s.saved x none n).isSome = true then d0 n else setAt s.disp x d n) = _
        by_cases hn : n = x
        · subst hn; rw [setAt_same, setAt_same]; simp [hs, h1]
        · rw [setAt_other _ _ hn, setAt_other _ _ hn]; simp [hn]
      · intro m dm hm
        change setAt s.saved x none m = some dm at hm
        by_cases hn : m = x
        · subst hn; rw [setAt_same] at hm; cases hm
        · rw [setAt_other _ _ hn] at hm; exact h m dm hm

/-- What happens to the handled signal n, once restoring has given it disposition d. -/
theorem exit_of_disp {e : SigEnv} {r : RaiseEnv} {p : SigState} {n : Int} {d : Disp} (h : (restoreAll e p).disp n = d) :
    (exitWithDefaultSignalHandler e r ⟨p, 1, true⟩ n).1 = if d = .g3log then .hang else ending r d n := by
  unfold exitWithDefaultSignalHandler ending
  simp only [h]
  cases d with
  | dfl => simp only; split <;> rfl
  | ign => rfl
  | g3log => rfl
  | user u => simp only; split <;> rfl

/-- C114: at every moment of the call, every signal that g3log handles then ends the process in the right way, with one exception: when the signal
arrives on the thread inside the call, after the system has been asked for it and before its old action has been noted, the process hangs. -/
theorem C114_hit (e : SigEnv) (r : RaiseEnv) (d0 : Int → Disp) (hd : ∀ n, d0 n ≠ .g3log) (s0 : SigState) (h : Orderly e d0 s0) (S : List Int)
    (hS : S.Nodup) (k : Nat) (s : SgState) (hk : sgSteps e (sgCall e s0 S) k = some s) (n : Int) :
    sgHit e r s n = if s.sig.disp n = .g3log then some (if s.todo.head? = some (.record n (d0 n)) then .hang else ending r (d0 n) n) else none := by
  unfold sgHit
  by_cases hg3 : s.sig.disp n = .g3log
  · rw [if_pos hg3, if_pos hg3]
    congr 1
    have hoff : e.off = true → ∀ m, s0.saved m = none := h.clean.off
    cases sgAt_steps h.clean h.nodup hS hk with
    | giving a b _ hg ht hdd hs hG _ =>
      have hnr : s.todo.head? ≠ some (.record n (d0 n)) := by rw [ht]; cases b <;> simp
      rw [if_neg hnr]
      have hna : n ∉ a := by intro hna; rw [hdd, if_pos hna] at hg3; exact hd n hg3
      have hsv : s0.saved n ≠ none := by
        intro hh; rw [hdd, if_neg hna, h.clean.rest n hh] at hg3; exact hd n hg3
      have ho : e.off = false := by
        cases ho : e.off with
        | false => rfl
        | true => exact absurd (hoff ho n) hsv
      rw [exit_of_disp (d := d0 n), if_neg (hd n)]
      unfold restoreAll
      rw [restore_fold_weak (d0 := d0) ho]
      · rw [if_pos]
        refine ⟨?_, by rw [hs, if_neg hna]; exact Option.isSome_iff_ne_none.mpr hsv⟩
        obtain ⟨d, hdn⟩ := Option.ne_none_iff_exists'.mp hsv
        rw [hG]; exact (h.clean.taken n d hdn).2.2.1
      · intro m dm hm
        rw [hs] at hm
        split at hm
        · cases hm
        · exact ⟨(h.clean.taken m dm hm).2.1, (h.clean.taken m dm hm).2.2.2⟩
    | given a x b _ hg hx ho ht hdd hs hG _ =>
      have hnr : s.todo.head? ≠ some (.record n (d0 n)) := by rw [ht]; simp
      rw [if_neg hnr]
      have hna : n ∉ a ++ [x] := by intro hna; rw [hdd, if_pos hna] at hg3; exact hd n hg3
      have hna' : n ∉ a := fun hh => hna (List.mem_append_left _ hh)
      have hsv : s0.saved n ≠ none := by
        intro hh; rw [hdd, if_neg hna, h.clean.rest n hh] at hg3; exact hd n hg3
      rw [exit_of_disp (d := d0 n), if_neg (hd n)]
      unfold restoreAll
      rw [restore_fold_weak (d0 := d0) ho]
      · rw [if_pos]
        refine ⟨?_, by rw [hs, if_neg hna']; exact Option.isSome_iff_ne_none.mpr hsv⟩
        obtain ⟨d, hdn⟩ := Option.ne_none_iff_exists'.mp hsv
        rw [hG]; exact (h.clean.taken n d hdn).2.2.1
      · intro m dm hm
        rw [hs] at hm
        split at hm
        · cases hm
        · exact ⟨(h.clean.taken m dm hm).2.1, (h.clean.taken m dm hm).2.2.2⟩
    | taking a b _ hg ht hdd hs hG _ =>
      have hnr : s.todo.head? ≠ some (.record n (d0 n)) := by rw [ht]; cases b <;> simp
      rw [if_neg hnr]
      have hna : n ∈ a ∧ e.accepts n = true := by
        by_cases hh : n ∈ a ∧ e.accepts n = true
        · exact hh
        · rw [hdd, if_neg hh] at hg3; exact absurd hg3 (hd n)
      have ho : e.off = false := by
        cases ho : e.off with
        | false => rfl
        | true =>
          rw [if_pos ho] at hg
          have : a = [] := (List.append_eq_nil_iff.mp hg.symm).1
          rw [this] at hna; exact absurd hna.1 (by simp)
      rw [if_neg (by simp [ho])] at hg
      rw [exit_of_disp (d := d0 n), if_neg (hd n)]
      unfold restoreAll
      rw [restore_fold_weak (d0 := d0) ho]
      · rw [if_pos ⟨by rw [hG, hg]; exact List.mem_append_left _ hna.1, by rw [hs, if_pos hna]; rfl⟩]
      · intro m dm hm
        rw [hs] at hm
        split at hm
        · rename_i hc; cases hm; exact ⟨rfl, hc.2⟩
        · cases hm
    | taken a x b _ hg hx ht hdd hs hG _ =>
      have ho : e.off = false := by
        cases ho : e.off with
        | false => rfl
        | true => rw [if_pos ho] at hg; exact absurd hg (by simp)
      rw [if_neg (by simp [ho])] at hg
      have hxa : x ∉ a := by
        rw [hg] at hS
        intro hxa
        exact (List.nodup_append.mp hS).2.2 x hxa x (by simp) rfl
      have hna : n ∈ a ++ [x] ∧ e.accepts n = true := by
        by_cases hh : n ∈ a ++ [x] ∧ e.accepts n = true
        · exact hh
        · rw [hdd, if_neg hh] at hg3; exact absurd hg3 (hd n)
      have hweak : ∀ m dm, s.sig.saved m = some dm → dm = d0 m ∧ e.accepts m = true := by
        intro m dm hm
        rw [hs] at hm
        split at hm
        · rename_i hc; cases hm; exact ⟨rfl, hc.2⟩
        · cases hm
      by_cases hn : n = x
      · subst hn
        rw [if_pos (by rw [ht]; rfl), exit_of_disp (d := .g3log), if_pos rfl]
        unfold restoreAll
        rw [restore_fold_weak (d0 := d0) ho _ hweak, if_neg, hg3]
        rw [hs, if_neg (fun hh => hxa hh.1)]
        simp
      · have hnr : s.todo.head? ≠ some (.record n (d0 n)) := by
          rw [ht]
          intro hh
          simp only [List.head?_cons, Option.some.injEq, SgTask.record.injEq] at hh
          exact hn hh.1.symm
        have hna' : n ∈ a := by
          rcases List.mem_append.mp hna.1 with hh | hh
          · exact hh
          · exact absurd (List.mem_singleton.mp hh) hn
        rw [if_neg hnr, exit_of_disp (d := d0 n), if_neg (hd n)]
        unfold restoreAll
        rw [restore_fold_weak (d0 := d0) ho _ hweak,
          if_pos ⟨by rw [hG, hg]; exact List.mem_append_left _ hna', by rw [hs, if_pos ⟨hna', hna.2⟩]; rfl⟩]
  · rw [if_neg hg3, if_neg hg3]

/-- C114, what holds: at every moment of the call every signal is handled by g3log or has its original action; signals that are neither handled
before nor in the new set keep their action throughout. -/
theorem C114_partial (e : SigEnv) (d0 : Int → Disp) (s0 : SigState) (h : Orderly e d0 s0) (S : List Int) (hS : S.Nodup)
    (k : Nat) (s : SgState) (hk : sgSteps e (sgCall e s0 S) k = some s) (n : Int) :
    (s.sig.disp n = .g3log ∨ s.sig.disp n = d0 n) ∧ (n ∉ S → s0.disp n ≠ .g3log → s.sig.disp n = d0 n) := by
  have h0 : s0.disp n = .g3log ∨ s0.disp n = d0 n := C43_nothing_else e d0 s0 h n
  have hsub : ∀ a b, (if e.off then [] else S) = a ++ b → n ∈ a → n ∈ S := by
    intro a b hab hna
    have : n ∈ (if e.off then [] else S) := by rw [hab]; exact List.mem_append_left _ hna
    split at this
    · exact absurd this (by simp)
    · exact this
  cases sgAt_steps h.clean h.nodup hS hk with
  | giving a b _ hg ht hdd hs hG _ =>
    rw [hdd]
    split
    · exact ⟨.inr rfl, fun _ _ => rfl⟩
    · exact ⟨h0, fun _ hne => h0.resolve_left hne⟩
  | given a x b _ hg hx ho ht hdd hs hG _ =>
    rw [hdd]
    split
    · exact ⟨.inr rfl, fun _ _ => rfl⟩
    · exact ⟨h0, fun _ hne => h0.resolve_left hne⟩
  | taking a b _ hg ht hdd hs hG _ =>
    rw [hdd]
    split
    · rename_i hc; exact ⟨.inl rfl, fun hn => absurd (hsub a b hg hc.1) hn⟩
    · exact ⟨.inr rfl, fun _ _ => rfl⟩
  | taken a x b _ hg hx ht hdd hs hG _ =>
    rw [hdd]
    split
    · rename_i hc; exact ⟨.inl rfl, fun hn => absurd (hsub (a ++ [x]) b (by rw [hg]; simp) hc.1) hn⟩
    · exact ⟨.inr rfl, fun _ _ => rfl⟩

/-! ### The gaps -/

theorem sg_between {e : SigEnv} {s : SgState} (P : SgState → Prop) (h0 : P s) {k : Nat} {t : SgState} (hk : sgSteps e s k = some t) (ht : ¬ P t) :
    ∃ j u v, sgSteps e s j = some u ∧ P u ∧ sgStep e u = some v ∧ sgSteps e s (j + 1) = some v ∧ ¬ P v := by
  induction k generalizing t with
  | zero => cases hk; exact absurd h0 ht
  | succ k ih =>
    have hk' := hk
    simp only [sgSteps, Option.bind_eq_some_iff] at hk'
    obtain ⟨u, h1, h2⟩ := hk'
    by_cases hu : P u
    · exact ⟨k, u, t, h1, hu, h2, hk, ht⟩
    · exact ih h1 hu

/-- Tasks are only taken from the front. -/
theorem sgStep_tail {e : SigEnv} {s s' : SgState} (h : sgStep e s = some s') : ∃ t r, s.todo = t :: r ∧ ∀ x ∈ r, x ∈ s'.todo := by
  obtain ⟨sig, todo, calls⟩ := s
  cases todo with
  | nil => simp [sgStep] at h
  | cons t r =>
    refine ⟨t, r, rfl, ?_⟩
    intro x hx
    cases t with
    | restore n =>
      simp only [sgStep] at h
      split at h
      · cases h; exact hx
      · split at h <;> cases h
        · exact hx
        · exact List.mem_cons_of_mem _ hx
    | install n =>
      simp only [sgStep] at h
      split at h <;> cases h
      · exact List.mem_cons_of_mem _ hx
      · exact hx
    | forget n => simp only [sgStep] at h; cases h; exact hx
    | choose l => simp only [sgStep] at h; cases h; exact hx
    | record n o => simp only [sgStep] at h; cases h; exact hx

/-- C114 fails, first gap: whatever was handled before and whatever is asked for, there is a moment of the call at which no signal at all is handled,
not even one that is handled before and after. -/
theorem C114_negation (e : SigEnv) (d0 : Int → Disp) (s0 : SigState) (h : Orderly e d0 s0) (S : List Int) (hS : S.Nodup) :
    ∃ k s, sgSteps e (sgCall e s0 S) k = some s ∧ s.sig.disp = d0 := by
  obtain ⟨k, t, _, hk, ht⟩ := sgSteps_finish (e := e) (s := sgCall e s0 S) (k := 0) rfl
  obtain ⟨j, u, v, h1, h2, h3, h4, h5⟩ := sg_between (fun s => SgTask.choose S ∈ s.todo)
    (by show _ ∈ sgOverride e s0 S; unfold sgOverride; simp) hk (by rw [ht]; simp)
  obtain ⟨x, r, hx, hr⟩ := sgStep_tail h3
  have hhead : x = .choose S := by
    rw [hx] at h2
    rcases List.mem_cons.mp h2 with hh | hh
    · exact hh.symm
    · exact absurd (hr _ hh) h5
  subst hhead
  refine ⟨j, u, h1, ?_⟩
  cases sgAt_steps h.clean h.nodup hS h1 with
  | giving a b _ hg ht hdd hs hG _ =>
    rw [ht] at hx
    cases b with
    | cons y b => simp at hx
    | nil =>
      rw [List.append_nil] at hg
      refine funext fun n => ?_
      rw [hdd]
      split
      · rfl
      · rename_i hna
        cases hsn : s0.saved n with
        | none => exact h.clean.rest n hsn
        | some d => exact absurd (by rw [← hg]; exact (h.clean.taken n d hsn).2.2.1) hna
  | given a y b _ hg hy ho ht hdd hs hG _ => rw [ht] at hx; simp at hx
  | taking a b _ hg ht hdd hs hG _ => rw [ht] at hx; cases b <;> simp at hx
  | taken a y b _ hg hy ht hdd hs hG _ => rw [ht] at hx; simp at hx

/-- C114 fails, second gap: every signal of the new set that the system accepts has a moment at which its arrival on the thread inside the call
leaves the process hanging. -/
theorem C114_hang_negation (e : SigEnv) (ho : e.off = false) (r : RaiseEnv) (d0 : Int → Disp) (hd : ∀ n, d0 n ≠ .g3log) (s0 : SigState)
    (h : Orderly e d0 s0) (S : List Int) (hS : S.Nodup) (n : Int) (hn : n ∈ S) (ha : e.accepts n = true) :
    ∃ k s, sgSteps e (sgCall e s0 S) k = some s ∧ sgHit e r s n = some .hang := by
  obtain ⟨k, t, _, hk, ht⟩ := sgSteps_finish (e := e) (s := sgCall e s0 S) (k := 0) rfl
  obtain ⟨j, u, v, h1, h2, h3, h4, h5⟩ := sg_between (fun s => SgTask.install n ∈ s.todo)
    (by show _ ∈ sgOverride e s0 S; unfold sgOverride; simp [ho, hn]) hk (by rw [ht]; simp)
  obtain ⟨x, l, hx, hr⟩ := sgStep_tail h3
  have hhead : x = .install n := by
    rw [hx] at h2
    rcases List.mem_cons.mp h2 with hh | hh
    · exact hh.symm
    · exact absurd (hr _ hh) h5
  subst hhead
  refine ⟨j + 1, v, h4, ?_⟩
  rw [C114_hit e r d0 hd s0 h S hS (j + 1) v h4 n]
  have hud : u.sig.disp n = d0 n := by
    cases sgAt_steps h.clean h.nodup hS h1 with
    | giving a b _ hg ht hdd hs hG _ => rw [ht] at hx; cases b <;> simp at hx
    | given a y b _ hg hy ho ht hdd hs hG _ => rw [ht] at hx; simp at hx
    | taken a y b _ hg hy ht hdd hs hG _ => rw [ht] at hx; simp at hx
    | taking a b _ hg ht hdd hs hG _ =>
      rw [ht] at hx
      cases b with
      | nil => simp at hx
      | cons y b =>
        simp only [List.map_cons, List.cons.injEq, SgTask.install.injEq] at hx
        obtain ⟨rfl, _⟩ := hx
        rw [if_neg (by simp [ho])] at hg
        rw [hdd, if_neg]
        intro hc
        rw [hg] at hS
        exact (List.nodup_append.mp hS).2.2 y hc.1 y (by simp) rfl
  obtain ⟨⟨disp, saved, gs⟩, todo, calls⟩ := u
  simp only at hx hud
  subst hx
  simp only [sgStep, if_pos ha, Option.some.injEq] at h3
  subst h3
  have e1 : setAt disp n Disp.g3log n = .g3log := setAt_same _ _ _
  simp only [e1, if_true, List.head?_cons, hud]

/-! ### Examples -/

/-- Everything the system knows but SIGKILL. -/
def exSigEnv : SigEnv := { off := false, accepts := fun n => n != 9 }

/-- SIGINT has a handler of the program, the rest the default action. -/
def exSigD0 : Int → Disp := fun n => if n = 2 then .user 7 else .dfl

theorem exSig_orderly : Orderly exSigEnv exSigD0 (installSignalHandler exSigEnv (SigState.start exSigD0)) := ⟨true, [], by simp, rfl⟩

/-- Changing from the default set to SIGSEGV, SIGINT and SIGKILL: the calls of the system. -/
example : changeCalls exSigD0 (fun n => decide ((installSignalHandler exSigEnv (SigState.start exSigD0)).disp n = .g3log)) kSignals [2, 9, 11] =
    [(4, .dfl), (6, .dfl), (8, .dfl), (11, .dfl), (15, .dfl), (2, .g3log), (9, .g3log), (11, .g3log)] := by decide +kernel

/-- A SIGSEGV after three steps is handled, after eight steps it kills the process without a word, after fifteen it is handled again but the process
hangs, and one step later all is well. -/
example : ((sgSteps exSigEnv (sgCall exSigEnv (installSignalHandler exSigEnv (SigState.start exSigD0)) [2, 9, 11]) 3).bind
      fun s => sgHit exSigEnv ⟨fun _ => true, fun _ => true⟩ s 11) = some (.killed 11) ∧
    ((sgSteps exSigEnv (sgCall exSigEnv (installSignalHandler exSigEnv (SigState.start exSigD0)) [2, 9, 11]) 8).map
      fun s => s.sig.disp 11) = some .dfl ∧
    ((sgSteps exSigEnv (sgCall exSigEnv (installSignalHandler exSigEnv (SigState.start exSigD0)) [2, 9, 11]) 15).bind
      fun s => sgHit exSigEnv ⟨fun _ => true, fun _ => true⟩ s 11) = some .hang ∧
    ((sgSteps exSigEnv (sgCall exSigEnv (installSignalHandler exSigEnv (SigState.start exSigD0)) [2, 9, 11]) 16).bind
      fun s => sgHit exSigEnv ⟨fun _ => true, fun _ => true⟩ s 11) = some (.killed 11) := by decide +kernel

/-- The hypotheses are met. -/
example : ∃ k s, sgSteps exSigEnv (sgCall exSigEnv (installSignalHandler exSigEnv (SigState.start exSigD0)) [2, 9, 11]) k = some s ∧
    sgHit exSigEnv ⟨fun _ => true, fun _ => true⟩ s 11 = some .hang :=
  C114_hang_negation exSigEnv rfl _ exSigD0 (by intro n; unfold exSigD0; split <;> simp) _ exSig_orderly [2, 9, 11] (by decide) 11 (by decide) rfl

end G3.Props
