import Verif.Spec.HandlerLog
import Verif.Props.SignalLocks
import Mathlib.Data.List.Induction
/-
C128: LOG statements in signal handlers of the program.
-/
namespace G3.Props
open G3 G3.Spec

section generic
variable {L : Type} [DecidableEq L]

theorem hl_go_self (s : HlState L) (v : Nat) (a : List (List (LkOp L))) : (s.go v a).acts v = a := by simp [HlState.go]

theorem hl_go_other (s : HlState L) {v w : Nat} (a : List (List (LkOp L))) (h : w ≠ v) : (s.go v a).acts w = s.acts w := by
  simp [HlState.go, Function.update_of_ne h]

/-- The four kinds of steps. -/
theorem hlStep_cases {s s' : HlState L} {x : HlLabel L} (h : hlStep s x = some s') :
    (∃ v l r as, x = .step v ∧ s.acts v = (.acq l :: r) :: as ∧ s.owner l = none ∧
      s' = { s.go v (r :: as) with owner := Function.update s.owner l (some v) }) ∨
    (∃ v l r as, x = .step v ∧ s.acts v = (.rel l :: r) :: as ∧ s.owner l = some v ∧
      s' = { s.go v (r :: as) with owner := Function.update s.owner l none }) ∨
    (∃ v a as, x = .step v ∧ s.acts v = [] :: a :: as ∧ s' = s.go v (a :: as)) ∨
    (∃ v H a as, x = .signal v H ∧ s.acts v = a :: as ∧ s.acts v ≠ [[]] ∧ s' = s.go v (H :: a :: as)) := by
  cases x with
  | step v =>
    unfold hlStep at h
    simp only at h
    split at h
    · simp at h
    · rename_i l r as hp
      split at h
      · rename_i ho
        simp only [Option.some.injEq] at h
        exact .inl ⟨v, l, r, as, rfl, hp, ho, h.symm⟩
      · simp at h
    · rename_i l r as hp
      split at h
      · rename_i ho
        simp only [Option.some.injEq] at h
        exact .inr (.inl ⟨v, l, r, as, rfl, hp, ho, h.symm⟩)
      · simp at h
    · simp at h
    · rename_i a as hp
      simp only [Option.some.injEq] at h
      exact .inr (.inr (.inl ⟨v, a, as, rfl, hp, h.symm⟩))
  | signal v H =>
    unfold hlStep at h
    simp only at h
    split at h
    · simp at h
    · simp at h
    · rename_i a as hne hp
      simp only [Option.some.injEq] at h
      refine .inr (.inr (.inr ⟨v, H, a, as, rfl, hp, ?_, h.symm⟩))
      intro he
      rw [he] at hp
      simp only [List.cons.injEq] at hp
      exact hne hp.1.symm hp.2.symm

/-- A handler that takes only locks of `N`, in order. -/
def GoodHandler (rank : L → Nat) (N : L → Prop) (H : List (LkOp L)) : Prop := inLockOrder rank N [] H ∧ ∀ l, takes l H → N l

/-- A thread and its locks: its program alone, or a handler above other handlers, which own nothing, and above the program, which owns no lock of `N`. -/
def HlInv (rank : L → Nat) (N : L → Prop) (s : HlState L) (v : Nat) : Prop :=
  (∃ p h, s.acts v = [p] ∧ inLockOrder rank N h p ∧ ∀ l, s.owner l = some v ↔ l ∈ h) ∨
  (∃ q h ms p b, s.acts v = q :: (ms ++ [p]) ∧ inLockOrder rank N h q ∧ (∀ l, takes l q → N l) ∧ (∀ l ∈ h, N l) ∧ (∀ m ∈ ms, GoodHandler rank N m) ∧
    inLockOrder rank N b p ∧ (∀ l ∈ b, ¬ N l) ∧ ∀ l, s.owner l = some v ↔ l ∈ h ∨ l ∈ b)

theorem hlInv_frame {rank : L → Nat} {N : L → Prop} {s s' : HlState L} {w : Nat} (h : HlInv rank N s w) (ha : s'.acts w = s.acts w)
    (ho : ∀ l, s'.owner l = some w ↔ s.owner l = some w) : HlInv rank N s' w := by
  rcases h with ⟨p, h, h1, h2, h3⟩ | ⟨q, h, ms, p, b, h1, h2, h3, h4, h5, h6, h7, h8⟩
  · exact .inl ⟨p, h, by rw [ha, h1], h2, fun l => by rw [ho]; exact h3 l⟩
  · exact .inr ⟨q, h, ms, p, b, by rw [ha, h1], h2, h3, h4, h5, h6, h7, fun l => by rw [ho]; exact h8 l⟩

theorem takes_tail {l : L} {x : LkOp L} {r : List (LkOp L)} (h : takes l r) : takes l (x :: r) := List.mem_cons_of_mem _ h

theorem hlInv_step {rank : L → Nat} {N : L → Prop} {s s' : HlState L} {x : HlLabel L} (h : ∀ w, HlInv rank N s w) (hs : hlStep s x = some s')
    (hx : ∀ v H, x = .signal v H → GoodHandler rank N H ∧ ∀ l, N l → s.owner l ≠ some v) (w : Nat) : HlInv rank N s' w := by
  rcases hlStep_cases hs with ⟨v, l, r, as, rfl, hp, ho, rfl⟩ | ⟨v, l, r, as, rfl, hp, ho, rfl⟩ | ⟨v, a, as, rfl, hp, rfl⟩ | ⟨v, H, a, as, rfl, hp, hne, rfl⟩
  · by_cases hw : w = v
    · subst hw
      rcases h w with ⟨p, h, h1, h2, h3⟩ | ⟨q, h, ms, p, b, h1, h2, h3, h4, h5, h6, h7, h8⟩
      · rw [hp] at h1
        simp only [List.cons.injEq] at h1
        obtain ⟨rfl, rfl⟩ := h1
        refine .inl ⟨r, l :: h, hl_go_self _ _ _, h2.2.2, fun k => ?_⟩
        by_cases hk : k = l
        · simp [hk]
        · simp [Function.update_of_ne hk, hk, h3 k]
      · rw [hp] at h1
        simp only [List.cons.injEq] at h1
        obtain ⟨rfl, rfl⟩ := h1
        refine .inr ⟨r, l :: h, ms, p, b, hl_go_self _ _ _, h2.2.2, fun k hk => h3 k (takes_tail hk), ?_, h5, h6, h7, fun k => ?_⟩
        · intro k hk
          rcases List.mem_cons.1 hk with rfl | hk
          · exact h3 _ (by simp [takes])
          · exact h4 k hk
        · by_cases hk : k = l
          · simp [hk]
          · simp [Function.update_of_ne hk, hk, h8 k]
    · refine hlInv_frame (h w) (hl_go_other _ _ hw) fun k => ?_
      by_cases hk : k = l
      · subst hk; simp [ho, Ne.symm hw]
      · simp [Function.update_of_ne hk, HlState.go]
  · by_cases hw : w = v
    · subst hw
      rcases h w with ⟨p, h, h1, h2, h3⟩ | ⟨q, h, ms, p, b, h1, h2, h3, h4, h5, h6, h7, h8⟩
      · rw [hp] at h1
        simp only [List.cons.injEq] at h1
        obtain ⟨rfl, rfl⟩ := h1
        refine .inl ⟨r, h.filter (· ≠ l), hl_go_self _ _ _, h2.2, fun k => ?_⟩
        by_cases hk : k = l
        · simp [hk]
        · simp [Function.update_of_ne hk, hk, h3 k]
      · rw [hp] at h1
        simp only [List.cons.injEq] at h1
        obtain ⟨rfl, rfl⟩ := h1
        refine .inr ⟨r, h.filter (· ≠ l), ms, p, b, hl_go_self _ _ _, h2.2, fun k hk => h3 k (takes_tail hk), fun k hk => h4 k ((List.mem_filter.1 hk).1), h5, h6, h7, fun k => ?_⟩
        have hnb : l ∉ b := fun hb => h7 l hb (h4 l h2.1)
        by_cases hk : k = l
        · simp [hk, hnb]
        · simp [Function.update_of_ne hk, hk, h8 k]
    · refine hlInv_frame (h w) (hl_go_other _ _ hw) fun k => ?_
      by_cases hk : k = l
      · subst hk; simp [ho, Ne.symm hw]
      · simp [Function.update_of_ne hk, HlState.go]
  · by_cases hw : w = v
    · subst hw
      rcases h w with ⟨p, h, h1, h2, h3⟩ | ⟨q, h, ms, p, b, h1, h2, h3, h4, h5, h6, h7, h8⟩
      · rw [hp] at h1; simp at h1
      · rw [hp] at h1
        simp only [List.cons.injEq] at h1
        obtain ⟨rfl, h1⟩ := h1
        have hh : h = [] := h2
        subst hh
        rcases ms with _ | ⟨m, ms⟩
        · simp only [List.nil_append, List.cons.injEq] at h1
          obtain ⟨rfl, rfl⟩ := h1
          exact .inl ⟨a, b, hl_go_self _ _ _, h6, fun l => by simpa [HlState.go] using h8 l⟩
        · simp only [List.cons_append, List.cons.injEq] at h1
          obtain ⟨rfl, rfl⟩ := h1
          have hm := h5 a (by simp)
          exact .inr ⟨a, [], ms, p, b, hl_go_self _ _ _, hm.1, hm.2, by simp, fun k hk => h5 k (by simp [hk]), h6, h7, fun l => by simpa [HlState.go] using h8 l⟩
    · exact hlInv_frame (h w) (hl_go_other _ _ hw) fun _ => Iff.rfl
  · obtain ⟨hg, hn⟩ := hx v H rfl
    by_cases hw : w = v
    · subst hw
      rcases h w with ⟨p, h, h1, h2, h3⟩ | ⟨q, h, ms, p, b, h1, h2, h3, h4, h5, h6, h7, h8⟩
      · rw [hp] at h1
        simp only [List.cons.injEq] at h1
        obtain ⟨rfl, rfl⟩ := h1
        exact .inr ⟨H, [], [], a, h, hl_go_self _ _ _, hg.1, hg.2, by simp, by simp, h2, fun l hl hN => hn l hN ((h3 l).2 hl), fun l => by simpa [HlState.go] using h3 l⟩
      · rw [hp] at h1
        simp only [List.cons.injEq] at h1
        obtain ⟨rfl, rfl⟩ := h1
        have hh : h = [] := by
          rcases h with _ | ⟨k, h⟩
          · rfl
          · exact absurd ((h8 k).2 (.inl (by simp))) (hn k (h4 k (by simp)))
        subst hh
        refine .inr ⟨H, [], a :: ms, p, b, hl_go_self _ _ _, hg.1, hg.2, by simp, ?_, h6, h7, fun l => by simpa [HlState.go] using h8 l⟩
        intro k hk
        rcases List.mem_cons.1 hk with rfl | hk
        · exact ⟨h2, h3⟩
        · exact h5 k hk
    · exact hlInv_frame (h w) (hl_go_other _ _ hw) fun _ => Iff.rfl

theorem hlInv_run {rank : L → Nat} {N : L → Prop} {ls : List (HlLabel L)} : ∀ {s s' : HlState L}, (∀ w, HlInv rank N s w) → hlRun s ls = some s' →
    (∀ H ∈ handlersOf ls, GoodHandler rank N H) → Considerate N s ls → ∀ w, HlInv rank N s' w := by
  induction ls with
  | nil => intro s s' h hr _ _; cases hr; exact h
  | cons x r ih =>
    intro s s' h hr hg hc
    rw [hlRun] at hr
    rcases hs : hlStep s x with _ | s1
    · simp [hs] at hr
    · rw [hs, Option.bind_some] at hr
      refine ih (hlInv_step h hs ?_) hr (fun H hH => hg H ?_) (hc.2 s1 hs)
      · rintro v H rfl
        exact ⟨hg H (by simp [handlersOf]), hc.1 v H rfl⟩
      · cases x <;> simp [handlersOf, hH]

/-- In such a state a thread that has not finished can go on, or waits for a lock of a higher rank than all its own, which another thread owns. -/
theorem hl_rest {rank : L → Nat} {N : L → Prop} {B : Nat} {s : HlState L} (hB : ∀ l, rank l ≤ B) (hN : ∀ l k, N l → ¬ N k → rank k < rank l)
    (h : ∀ w, HlInv rank N s w) (hr : atRest s) (v : Nat) : finished s v := by
  have wants : ∀ w, ¬ finished s w → ∃ l r as, s.acts w = (.acq l :: r) :: as ∧ s.owner l ≠ none := by
    intro w hw
    have hst := hr w
    have hne : s.acts w ≠ [] := by
      rcases h w with ⟨p, h, h1, _⟩ | ⟨q, h, ms, p, b, h1, _⟩ <;> rw [h1] <;> simp
    rcases ha : s.acts w with _ | ⟨q, as⟩
    · exact absurd ha hne
    · rcases q with _ | ⟨x, r⟩
      · rcases as with _ | ⟨a, as⟩
        · exact absurd ha hw
        · simp [hlStep, ha] at hst
      · cases x with
        | acq l =>
          refine ⟨l, r, as, rfl, fun ho => ?_⟩
          simp [hlStep, ha, ho] at hst
        | rel l =>
          exfalso
          have : s.owner l = some w := by
            rcases h w with ⟨p, h, h1, h2, h3⟩ | ⟨q, h, ms, p, b, h1, h2, h3, h4, h5, h6, h7, h8⟩
            · rw [ha] at h1
              simp only [List.cons.injEq] at h1
              obtain ⟨rfl, _⟩ := h1
              exact (h3 l).2 h2.1
            · rw [ha] at h1
              simp only [List.cons.injEq] at h1
              obtain ⟨rfl, _⟩ := h1
              exact (h8 l).2 (.inl h2.1)
          simp [hlStep, ha, this] at hst
  have climb : ∀ (k : Nat) (w : Nat) (l : L) (r : List (LkOp L)) (as : List (List (LkOp L))), s.acts w = (.acq l :: r) :: as → s.owner l ≠ none → B ≤ rank l + k → False := by
    intro k
    induction k with
    | zero =>
      intro w l r as ha ho hb
      obtain ⟨u, hu⟩ := Option.ne_none_iff_exists'.1 ho
      have hnf : ¬ finished s u := by
        intro hf
        rcases h u with ⟨p, h, h1, h2, h3⟩ | ⟨q, h, ms, p, b, h1, _⟩
        · rw [hf] at h1
          simp only [List.cons.injEq, and_true] at h1
          subst h1
          have hh : h = [] := h2
          rw [hh] at h3
          exact absurd ((h3 l).1 hu) (by simp)
        · rw [hf] at h1
          simp at h1
      obtain ⟨l', r', as', ha', ho'⟩ := wants u hnf
      have : rank l < rank l' := by
        rcases h u with ⟨p, h, h1, h2, h3⟩ | ⟨q, h, ms, p, b, h1, h2, h3, h4, h5, h6, h7, h8⟩
        · rw [ha'] at h1
          simp only [List.cons.injEq] at h1
          obtain ⟨rfl, _⟩ := h1
          exact h2.1 l ((h3 l).1 hu)
        · rw [ha'] at h1
          simp only [List.cons.injEq] at h1
          obtain ⟨rfl, _⟩ := h1
          rcases (h8 l).1 hu with hh | hb
          · exact h2.1 l hh
          · exact hN l' l (h3 l' (by simp [takes])) (h7 l hb)
      have := hB l'
      omega
    | succ k ih =>
      intro w l r as ha ho hb
      obtain ⟨u, hu⟩ := Option.ne_none_iff_exists'.1 ho
      have hnf : ¬ finished s u := by
        intro hf
        rcases h u with ⟨p, h, h1, h2, h3⟩ | ⟨q, h, ms, p, b, h1, _⟩
        · rw [hf] at h1
          simp only [List.cons.injEq, and_true] at h1
          subst h1
          have hh : h = [] := h2
          rw [hh] at h3
          exact absurd ((h3 l).1 hu) (by simp)
        · rw [hf] at h1
          simp at h1
      obtain ⟨l', r', as', ha', ho'⟩ := wants u hnf
      have : rank l < rank l' := by
        rcases h u with ⟨p, h, h1, h2, h3⟩ | ⟨q, h, ms, p, b, h1, h2, h3, h4, h5, h6, h7, h8⟩
        · rw [ha'] at h1
          simp only [List.cons.injEq] at h1
          obtain ⟨rfl, _⟩ := h1
          exact h2.1 l ((h3 l).1 hu)
        · rw [ha'] at h1
          simp only [List.cons.injEq] at h1
          obtain ⟨rfl, _⟩ := h1
          rcases (h8 l).1 hu with hh | hb
          · exact h2.1 l hh
          · exact hN l' l (h3 l' (by simp [takes])) (h7 l hb)
      exact ih u l' r' as' ha' ho' (by omega)
  by_contra hv
  obtain ⟨l, r, as, ha, ho⟩ := wants v hv
  exact climb B v l r as ha ho (by omega)

theorem hlInv_start {rank : L → Nat} {N : L → Prop} {P : Nat → List (LkOp L)} (hP : ∀ v, inLockOrder rank N [] (P v)) (w : Nat) :
    HlInv rank N (HlState.start P) w := .inl ⟨P w, [], rfl, hP w, fun l => by simp [HlState.start]⟩

/-- C128 in general. Threads take locks in order, handlers take locks of `N` only, in order, and every signal comes when its thread owns none of these: then whenever no thread can go on, all
threads and handlers are finished. -/
theorem C128_through {rank : L → Nat} {N : L → Prop} {B : Nat} {P : Nat → List (LkOp L)} {ls : List (HlLabel L)} {s : HlState L} (hB : ∀ l, rank l ≤ B)
    (hN : ∀ l k, N l → ¬ N k → rank k < rank l) (hP : ∀ v, inLockOrder rank N [] (P v)) (hH : ∀ H ∈ handlersOf ls, inLockOrder rank N [] H ∧ ∀ l, takes l H → N l)
    (hc : Considerate N (HlState.start P) ls) (h : hlRun (HlState.start P) ls = some s) (hr : atRest s) (v : Nat) : finished s v :=
  hl_rest hB hN (hlInv_run (hlInv_start hP) h hH hc) hr v

/-- What is left to do. -/
def hlWork (s : HlState L) : Nat → Nat
  | 0 => 0
  | n + 1 => hlWork s n + ((s.acts n).map (·.length + 1)).sum

theorem hlWork_congr {s s' : HlState L} : ∀ n, (∀ w, w < n → s'.acts w = s.acts w) → hlWork s' n = hlWork s n
  | 0, _ => rfl
  | n + 1, h => by rw [hlWork, hlWork, hlWork_congr n fun w hw => h w (by omega), h n (by omega)]

theorem hlWork_change {s s' : HlState L} {v : Nat} (h : ∀ w, w ≠ v → s'.acts w = s.acts w) : ∀ n, v < n →
    hlWork s' n + ((s.acts v).map (·.length + 1)).sum = hlWork s n + ((s'.acts v).map (·.length + 1)).sum
  | 0, hv => absurd hv (by omega)
  | n + 1, hv => by
    rw [hlWork, hlWork]
    by_cases hn : v = n
    · subst hn
      rw [hlWork_congr v fun w hw => h w (by omega)]
      omega
    · rw [h n fun e => hn e.symm]
      have := hlWork_change h n (by omega)
      omega

theorem hlStep_thread {s s' : HlState L} {v : Nat} (hs : hlStep s (.step v) = some s') : s.acts v ≠ [[]] ∧ ∀ w, w ≠ v → s'.acts w = s.acts w := by
  rcases hlStep_cases hs with ⟨u, l, r, as, hu, hp, ho, rfl⟩ | ⟨u, l, r, as, hu, hp, ho, rfl⟩ | ⟨u, a, as, hu, hp, rfl⟩ | ⟨u, H, a, as, hu, _⟩
  · cases hu; exact ⟨by rw [hp]; simp, fun w hw => hl_go_other _ _ hw⟩
  · cases hu; exact ⟨by rw [hp]; simp, fun w hw => hl_go_other _ _ hw⟩
  · cases hu; exact ⟨by rw [hp]; simp, fun w hw => hl_go_other _ _ hw⟩
  · cases hu

theorem hlWork_step {s s' : HlState L} {v : Nat} (hs : hlStep s (.step v) = some s') (n : Nat) (hv : v < n) : hlWork s' n + 1 = hlWork s n := by
  have h : (∃ x r as, s.acts v = (x :: r) :: as ∧ s'.acts v = r :: as) ∨ ∃ a as, s.acts v = [] :: a :: as ∧ s'.acts v = a :: as := by
    rcases hlStep_cases hs with ⟨u, l, r, as, hu, hp, ho, rfl⟩ | ⟨u, l, r, as, hu, hp, ho, rfl⟩ | ⟨u, a, as, hu, hp, rfl⟩ | ⟨u, H, a, as, hu, _⟩
    · cases hu; exact .inl ⟨_, r, as, hp, hl_go_self _ _ _⟩
    · cases hu; exact .inl ⟨_, r, as, hp, hl_go_self _ _ _⟩
    · cases hu; exact .inr ⟨a, as, hp, hl_go_self _ _ _⟩
    · cases hu
  have := hlWork_change (hlStep_thread hs).2 n hv
  rcases h with ⟨x, r, as, h1, h2⟩ | ⟨a, as, h1, h2⟩ <;> rw [h1, h2] at this <;> simp only [List.map_cons, List.sum_cons, List.length_cons, List.length_nil] at this <;> omega

/-- C128: with `n` threads only a bounded number of steps can be made without further signals. -/
theorem C128_bounded {n : Nat} : ∀ {vs : List Nat} {s s' : HlState L}, (∀ w, n ≤ w → finished s w) → hlRun s (vs.map .step) = some s' → vs.length ≤ hlWork s n := by
  intro vs
  induction vs with
  | nil => intro s s' _ _; simp
  | cons v r ih =>
    intro s s' hn hr
    rw [List.map_cons, hlRun] at hr
    rcases hs : hlStep s (.step v) with _ | s1
    · simp [hs] at hr
    · rw [hs, Option.bind_some] at hr
      obtain ⟨h1, h2⟩ := hlStep_thread hs
      have hv : v < n := by
        by_contra hx
        exact h1 (hn v (by omega))
      have := ih (fun w hw => by rw [finished, h2 w (by omega)]; exact hn w hw) hr
      have := hlWork_step hs n hv
      simp only [List.length_cons]
      omega

/-- C128: so the threads come to rest in every schedule. -/
theorem C128_reached {n : Nat} : ∀ (k : Nat) {s : HlState L}, hlWork s n ≤ k → (∀ w, n ≤ w → finished s w) → ∃ (vs : List Nat) (s' : HlState L), hlRun s (vs.map .step) = some s' ∧ atRest s' := by
  intro k
  induction k with
  | zero =>
    intro s hk hn
    refine ⟨[], s, rfl, fun v => ?_⟩
    rcases hs : hlStep s (.step v) with _ | s1
    · rfl
    · obtain ⟨h1, _⟩ := hlStep_thread hs
      have hv : v < n := by
        by_contra hx
        exact h1 (hn v (by omega))
      have := hlWork_step hs n hv
      omega
  | succ k ih =>
    intro s hk hn
    by_cases hr : atRest s
    · exact ⟨[], s, rfl, hr⟩
    · unfold atRest at hr
      push Not at hr
      obtain ⟨v, hv0⟩ := hr
      obtain ⟨s1, hs⟩ := Option.ne_none_iff_exists'.1 hv0
      obtain ⟨h1, h2⟩ := hlStep_thread hs
      have hv : v < n := by
        by_contra hx
        exact h1 (hn v (by omega))
      have := hlWork_step hs n hv
      obtain ⟨vs, s', h3, h4⟩ := ih (by omega) (fun w hw => by rw [finished, h2 w (by omega)]; exact hn w hw) (s := s1)
      exact ⟨v :: vs, s', by rw [List.map_cons, hlRun, hs]; exact h3, h4⟩

/-- C128: whatever a program does: if a signal comes while its thread owns a lock that the handler takes, then in every schedule, whatever happens on other threads, signals included, the handler does not return, the
thread does not go on, and no other thread ever gets the lock. -/
theorem C128_lost {s0 s : HlState L} {t : Nat} {l : L} {H : List (LkOp L)} {ls : List (HlLabel L)} (ho : s0.owner l = some t)
    (hl : ∃ x y, H = x ++ .acq l :: y ∧ .rel l ∉ x) (hls : ∀ H', .signal t H' ∉ ls) (h : hlRun s0 (.signal t H :: ls) = some s) :
    s.owner l = some t ∧ ∃ x y, s.acts t = (x ++ .acq l :: y) :: s0.acts t := by
  rw [hlRun] at h
  rcases hs : hlStep s0 (.signal t H) with _ | s1
  · simp [hs] at h
  rw [hs, Option.bind_some] at h
  have key : ∀ (ls : List (HlLabel L)) (s1 : HlState L), (∀ H', .signal t H' ∉ ls) → hlRun s1 ls = some s →
      (s1.owner l = some t ∧ ∃ x y, s1.acts t = (x ++ .acq l :: y) :: s0.acts t ∧ .rel l ∉ x) →
      (s.owner l = some t ∧ ∃ x y, s.acts t = (x ++ .acq l :: y) :: s0.acts t ∧ .rel l ∉ x) := by
    intro ls
    induction ls with
    | nil => intro s1 _ h hi; cases h; exact hi
    | cons z r ih =>
      intro s1 hls h hi
      rw [hlRun] at h
      rcases hz : hlStep s1 z with _ | s2
      · simp [hz] at h
      rw [hz, Option.bind_some] at h
      refine ih s2 (fun H' hm => hls H' (by simp [hm])) h ?_
      obtain ⟨h1, x, y, h2, h3⟩ := hi
      rcases hlStep_cases hz with ⟨v, k, r', as, rfl, hp, hk, rfl⟩ | ⟨v, k, r', as, rfl, hp, hk, rfl⟩ | ⟨v, a, as, rfl, hp, rfl⟩ | ⟨v, H', a, as, rfl, hp, hne, rfl⟩
      · have hkl : k ≠ l := fun e => by rw [e, h1] at hk; cases hk
        refine ⟨by simp only [Function.update_of_ne (Ne.symm hkl)]; exact h1, ?_⟩
        by_cases hv : t = v
        · subst hv
          rw [hp] at h2
          simp only [List.cons.injEq] at h2
          obtain ⟨h2, h4⟩ := h2
          rcases x with _ | ⟨x0, x⟩
          · simp only [List.nil_append, List.cons.injEq, LkOp.acq.injEq] at h2
            exact absurd h2.1 hkl
          · simp only [List.cons_append, List.cons.injEq] at h2
            exact ⟨x, y, by rw [show ({ s1.go t (r' :: as) with owner := Function.update s1.owner k (some t) } : HlState L).acts t = r' :: as from hl_go_self _ _ _, h2.2, h4],
              fun hm => h3 (by simp [hm])⟩
        · exact ⟨x, y, by rw [← h2]; exact hl_go_other _ _ hv, h3⟩
      · have hkl : v = t → k ≠ l := by
          rintro rfl e
          rw [hp] at h2
          simp only [List.cons.injEq] at h2
          obtain ⟨h2, _⟩ := h2
          rcases x with _ | ⟨x0, x⟩
          · simp at h2
          · simp only [List.cons_append, List.cons.injEq] at h2
            exact h3 (by rw [← h2.1, e]; simp)
        have hkl' : k ≠ l := by
          intro e
          rw [e, h1] at hk
          simp only [Option.some.injEq] at hk
          exact hkl hk.symm e
        refine ⟨by simp only [Function.update_of_ne (Ne.symm hkl')]; exact h1, ?_⟩
        by_cases hv : t = v
        · subst hv
          rw [hp] at h2
          simp only [List.cons.injEq] at h2
          obtain ⟨h2, h4⟩ := h2
          rcases x with _ | ⟨x0, x⟩
          · simp at h2
          · simp only [List.cons_append, List.cons.injEq] at h2
            exact ⟨x, y, by rw [show ({ s1.go t (r' :: as) with owner := Function.update s1.owner k none } : HlState L).acts t = r' :: as from hl_go_self _ _ _, h2.2, h4],
              fun hm => h3 (by simp [hm])⟩
        · exact ⟨x, y, by rw [← h2]; exact hl_go_other _ _ hv, h3⟩
      · refine ⟨h1, x, y, ?_, h3⟩
        by_cases hv : t = v
        · subst hv
          rw [hp] at h2
          simp at h2
        · rw [← h2]; exact hl_go_other _ _ hv
      · have hv : t ≠ v := by
          rintro rfl
          exact hls H' (by simp)
        exact ⟨h1, x, y, by rw [← h2]; exact hl_go_other _ _ hv, h3⟩
  obtain ⟨x, y, hx, hxr⟩ := hl
  obtain ⟨h1, x', y', h2, _⟩ := key ls s1 hls h (by
    rcases hlStep_cases hs with ⟨v, k, r', as, he, _⟩ | ⟨v, k, r', as, he, _⟩ | ⟨v, a, as, he, _⟩ | ⟨v, H', a, as, he, hp, hne, rfl⟩
    · cases he
    · cases he
    · cases he
    · cases he
      exact ⟨ho, x, y, by rw [hl_go_self, hp, hx], hxr⟩)
  exact ⟨h1, x', y', h2⟩

/-- A history without signals is one of Model/SignalLocks. -/
theorem hl_plain {vs : List Nat} : ∀ {s : HlState L} {k : LkState L}, (∀ v, s.acts v = [k.prog v]) → s.owner = k.owner →
    ∀ s', hlRun s (vs.map .step) = some s' → ∃ k', lkRun k vs = some k' ∧ (∀ v, s'.acts v = [k'.prog v]) ∧ s'.owner = k'.owner := by
  induction vs with
  | nil => intro s k h1 h2 s' h; cases h; exact ⟨k, rfl, h1, h2⟩
  | cons v r ih =>
    intro s k h1 h2 s' h
    rw [List.map_cons, hlRun] at h
    rcases hs : hlStep s (.step v) with _ | s1
    · simp [hs] at h
    rw [hs, Option.bind_some] at h
    have : ∃ k1, lkStep k v = some k1 ∧ (∀ w, s1.acts w = [k1.prog w]) ∧ s1.owner = k1.owner := by
      rcases hlStep_cases hs with ⟨u, l, r', as, hu, hp, ho, rfl⟩ | ⟨u, l, r', as, hu, hp, ho, rfl⟩ | ⟨u, a, as, hu, hp, rfl⟩ | ⟨u, H, a, as, hu, _⟩
      · cases hu
        rw [h1] at hp
        simp only [List.cons.injEq] at hp
        refine ⟨⟨Function.update k.prog v r', Function.update k.owner l (some v)⟩, by unfold lkStep; rw [hp.1]; simp [← h2, ho], fun w => ?_, by simp only [h2]⟩
        by_cases hw : w = v
        · subst hw
          rw [show ({ s.go w (r' :: as) with owner := Function.update s.owner l (some w) } : HlState L).acts w = r' :: as from hl_go_self _ _ _, ← hp.2]; simp
        · simp only [Function.update_of_ne hw]
          rw [← h1 w]; exact hl_go_other _ _ hw
      · cases hu
        rw [h1] at hp
        simp only [List.cons.injEq] at hp
        refine ⟨⟨Function.update k.prog v r', Function.update k.owner l none⟩, by unfold lkStep; rw [hp.1]; simp [← h2, ho], fun w => ?_, by simp only [h2]⟩
        by_cases hw : w = v
        · subst hw
          rw [show ({ s.go w (r' :: as) with owner := Function.update s.owner l none } : HlState L).acts w = r' :: as from hl_go_self _ _ _, ← hp.2]; simp
        · simp only [Function.update_of_ne hw]
          rw [← h1 w]; exact hl_go_other _ _ hw
      · rw [h1] at hp; simp at hp
      · cases hu
    obtain ⟨k1, hk, h3, h4⟩ := this
    obtain ⟨k', h5, h6⟩ := ih h3 h4 s' h
    exact ⟨k', by rw [lkRun, hk]; exact h5, h6⟩

/-- What a thread owns before any signal, told from its own program. -/
theorem hl_owner {P : Nat → List (LkOp L)} {vs : List Nat} {s : HlState L} (h : hlRun (HlState.start P) (vs.map .step) = some s) (v : Nat) :
    ∃ d r, s.acts v = [r] ∧ P v = d ++ r ∧ ∀ l, s.owner l = some v ↔ ownsAfter l d := by
  obtain ⟨k, h1, h2, h3⟩ := hl_plain (k := LkState.start P) (fun _ => rfl) rfl s h
  obtain ⟨d, h4, h5⟩ := owner_done h1 v
  exact ⟨d, k.prog v, h2 v, h4, fun l => by rw [h3]; exact h5 l⟩

theorem hlRun_append (s : HlState L) (a b : List (HlLabel L)) : hlRun s (a ++ b) = (hlRun s a).bind fun s' => hlRun s' b := by
  induction a generalizing s with
  | nil => rfl
  | cons x r ih =>
    show (hlStep s x).bind _ = _
    rw [hlRun]
    cases hlStep s x with
    | none => rfl
    | some s1 => exact ih s1

/-- C128: and every other thread that still has to take the lock never finishes. -/
theorem C128_others {s0 : HlState L} {t v : Nat} {l : L} {H : List (LkOp L)} (ho : s0.owner l = some t) (hl : ∃ x y, H = x ++ .acq l :: y ∧ .rel l ∉ x) (hv : v ≠ t)
    (hw : ∃ p ∈ s0.acts v, takes l p) (ls : List (HlLabel L)) : ∀ s, (∀ H', .signal t H' ∉ ls) → hlRun s0 (.signal t H :: ls) = some s → ∃ p ∈ s.acts v, takes l p := by
  induction ls using List.reverseRecOn with
  | nil =>
    intro s _ h
    rw [hlRun] at h
    rcases hs : hlStep s0 (.signal t H) with _ | s1
    · simp [hs] at h
    rw [hs, Option.bind_some] at h
    cases h
    rcases hlStep_cases hs with ⟨u, k, r', as, he, _⟩ | ⟨u, k, r', as, he, _⟩ | ⟨u, a, as, he, _⟩ | ⟨u, H', a, as, he, hp, hne, rfl⟩
    · cases he
    · cases he
    · cases he
    · cases he
      rw [hl_go_other _ _ hv]; exact hw
  | append_singleton r z ih =>
    intro s hls h
    rw [← List.cons_append, hlRun_append] at h
    rcases h1 : hlRun s0 (.signal t H :: r) with _ | s1
    · simp [h1] at h
    rw [h1, Option.bind_some] at h
    have hr : ∀ H', .signal t H' ∉ r := fun H' hm => hls H' (by simp [hm])
    obtain ⟨p, hp1, hp2⟩ := ih s1 hr h1
    have hown := (C128_lost ho hl hr h1).1
    rw [hlRun] at h
    rcases hz : hlStep s1 z with _ | s2
    · simp [hz] at h
    rw [hz, Option.bind_some] at h
    cases h
    rcases hlStep_cases hz with ⟨u, k, r', as, rfl, hp, hk, rfl⟩ | ⟨u, k, r', as, rfl, hp, hk, rfl⟩ | ⟨u, a, as, rfl, hp, rfl⟩ | ⟨u, H', a, as, rfl, hp, hne, rfl⟩
    · by_cases hu : v = u
      · subst hu
        rw [show ({ s1.go v (r' :: as) with owner := Function.update s1.owner k (some v) } : HlState L).acts v = r' :: as from hl_go_self _ _ _]
        rw [hp] at hp1
        rcases List.mem_cons.1 hp1 with rfl | hp1
        · refine ⟨r', by simp, ?_⟩
          rcases List.mem_cons.1 hp2 with he | he
          · cases he; rw [hown] at hk; cases hk
          · exact he
        · exact ⟨p, by simp [hp1], hp2⟩
      · exact ⟨p, by rw [show ({ s1.go u (r' :: as) with owner := Function.update s1.owner k (some u) } : HlState L).acts v = s1.acts v from hl_go_other _ _ hu]; exact hp1, hp2⟩
    · by_cases hu : v = u
      · subst hu
        rw [show ({ s1.go v (r' :: as) with owner := Function.update s1.owner k none } : HlState L).acts v = r' :: as from hl_go_self _ _ _]
        rw [hp] at hp1
        rcases List.mem_cons.1 hp1 with rfl | hp1
        · refine ⟨r', by simp, ?_⟩
          rcases List.mem_cons.1 hp2 with he | he
          · cases he
          · exact he
        · exact ⟨p, by simp [hp1], hp2⟩
      · exact ⟨p, by rw [show ({ s1.go u (r' :: as) with owner := Function.update s1.owner k none } : HlState L).acts v = s1.acts v from hl_go_other _ _ hu]; exact hp1, hp2⟩
    · by_cases hu : v = u
      · subst hu
        rw [hl_go_self]
        rw [hp] at hp1
        rcases List.mem_cons.1 hp1 with rfl | hp1
        · cases hp2
        · exact ⟨p, hp1, hp2⟩
      · exact ⟨p, by rw [hl_go_other _ _ hu]; exact hp1, hp2⟩
    · by_cases hu : v = u
      · subst hu
        rw [hl_go_self]
        rw [hp] at hp1
        exact ⟨p, List.mem_cons_of_mem _ hp1, hp2⟩
      · exact ⟨p, by rw [hl_go_other _ _ hu]; exact hp1, hp2⟩

end generic

/-- The order of the locks. -/
def hRank : GLock → Nat
  | .heap => 3
  | .queue => 2
  | .hook => 1
  | .other _ => 0

theorem heap_orderly_h (k : Nat) : ∀ (held : List GLock) (r : List (LkOp GLock)), (∀ h ∈ held, hRank h < 3) → inLockOrder hRank logLock held r →
    inLockOrder hRank logLock held (heapOps k ++ r) := by
  induction k with
  | zero => exact fun held r _ h => h
  | succ k ih =>
    intro held r hh h
    have hf : (GLock.heap :: held).filter (· ≠ .heap) = held := by
      rw [List.filter_cons_of_neg (by simp), List.filter_eq_self]
      intro a ha
      have := hh a ha
      cases a <;> simp [hRank] at this ⊢
    refine ⟨hh, fun _ => trivial, List.mem_cons_self .., ?_⟩
    rw [hf]
    exact ih held r hh h

theorem section_orderly_h (l : GLock) (hl : 0 < hRank l ∧ hRank l < 3) (k : Nat) (held : List GLock) (r : List (LkOp GLock))
    (hh : ∀ h ∈ held, hRank h = 0) (h : inLockOrder hRank logLock held r) :
    inLockOrder hRank logLock held (.acq l :: (heapOps k ++ [.rel l]) ++ r) := by
  have hf : (l :: held).filter (· ≠ l) = held := by
    rw [List.filter_cons_of_neg (by simp), List.filter_eq_self]
    intro a ha
    have := hh a ha
    have : a ≠ l := by rintro rfl; omega
    simpa using this
  rw [List.cons_append, List.append_assoc]
  refine ⟨fun x hx => by rw [hh x hx]; omega, ?_, ?_⟩
  · rintro ⟨x, hx, hxn⟩
    have := hh x hx
    cases x <;> simp [hRank, logLock] at this hxn
  refine heap_orderly_h k _ _ (fun x hx => ?_) ⟨List.mem_cons_self .., ?_⟩
  · rcases List.mem_cons.1 hx with rfl | hx
    · omega
    · have := hh x hx; omega
  · rw [hf]; exact h

theorem piece_orderly_h (p : GPiece) (held : List GLock) (r : List (LkOp GLock)) (hh : ∀ h ∈ held, hRank h = 0) (h : inLockOrder hRank logLock held r) :
    inLockOrder hRank logLock held (p.ops ++ r) := by
  cases p with
  | alloc => exact heap_orderly_h 1 held r (fun x hx => by rw [hh x hx]; omega) h
  | hook k => exact section_orderly_h .hook (by decide) k held r hh h
  | queue k => exact section_orderly_h .queue (by decide) k held r hh h

theorem pieces_orderly_h (ps : List GPiece) (held : List GLock) (r : List (LkOp GLock)) (hh : ∀ h ∈ held, hRank h = 0) (h : inLockOrder hRank logLock held r) :
    inLockOrder hRank logLock held (pieceOps ps ++ r) := by
  induction ps with
  | nil => exact h
  | cons p ps ih =>
    show inLockOrder hRank logLock held (p.ops ++ pieceOps ps ++ r)
    rw [List.append_assoc]
    exact piece_orderly_h p held _ hh ih

theorem parts_orderly_h (ps : List GPart) : inLockOrder hRank logLock [] (partOps ps) := by
  induction ps with
  | nil => rfl
  | cons p ps ih =>
    cases p with
    | piece p => exact piece_orderly_h p [] _ (by simp) ih
    | under n qs =>
      show inLockOrder hRank logLock [] (.acq (.other n) :: (pieceOps qs ++ [.rel (.other n)]) ++ partOps ps)
      rw [List.cons_append, List.append_assoc]
      refine ⟨by simp, by simp, pieces_orderly_h qs _ _ (by simp [hRank]) ⟨List.mem_cons_self .., ?_⟩⟩
      simpa using ih

theorem quiet_takes {ps : List GPiece} (h : hookFree ps) {l : GLock} (ht : takes l (pieceOps ps)) : logLock l := by
  have heap : ∀ k, takes l (heapOps k) → logLock l := by
    intro k
    induction k with
    | zero => intro h; cases h
    | succ k ih =>
      intro h
      unfold takes heapOps at h
      simp only [List.mem_cons, LkOp.acq.injEq, reduceCtorEq, false_or] at h
      rcases h with rfl | h
      · trivial
      · exact ih h
  induction ps with
  | nil => cases ht
  | cons p ps ih =>
    rcases List.mem_append.1 ht with ht | ht
    · cases p with
      | alloc => exact heap 1 ht
      | hook k => exact absurd rfl (h (.hook k) (by simp) k)
      | queue k =>
        simp only [GPiece.ops, List.mem_cons, LkOp.acq.injEq, List.mem_append, reduceCtorEq, List.not_mem_nil, or_false] at ht
        rcases ht with rfl | ht
        · trivial
        · exact heap k ht
    · exact ih (fun q hq => h q (by simp [hq])) ht

theorem quiet_good {ps : List GPiece} (h : hookFree ps) : inLockOrder hRank logLock [] (pieceOps ps) ∧ ∀ l, takes l (pieceOps ps) → logLock l := by
  refine ⟨?_, fun l => quiet_takes h⟩
  have := pieces_orderly_h ps [] [] (by simp) rfl
  rwa [List.append_nil] at this

theorem log_hookFree (a b : Nat) : hookFree (logPieces a b) := by
  intro p hp k
  simp only [logPieces, List.mem_append, List.mem_replicate, List.mem_singleton] at hp
  rcases hp with ⟨_, rfl⟩ | rfl <;> simp

/-- **C128** (the part that holds). A program of any number of threads that log, allocate, set hooks and use locks of their own, also around calls of the library, and any number of signals, also while handlers run, whose handlers log and allocate. If
every signal comes when its thread is neither inside the heap nor inside an operation of the queue of the worker, then nobody waits for ever: when no thread can go on, all handlers have returned and
all threads are at their end.

Missing: signals at other moments, see `C128_exact` and `C128_negation`. -/
theorem C128_statement_partial {Q : Nat → List GPart} {ls : List (HlLabel GLock)} {s : HlState GLock} (hH : ∀ H ∈ handlersOf ls, ∃ ps, hookFree ps ∧ H = pieceOps ps)
    (hc : Considerate logLock (HlState.start fun v => partOps (Q v)) ls) (h : hlRun (HlState.start fun v => partOps (Q v)) ls = some s) (hr : atRest s) (v : Nat) : finished s v := by
  refine C128_through (rank := hRank) (N := logLock) (B := 3) (fun l => by cases l <;> simp [hRank]) ?_ (fun v => parts_orderly_h (Q v)) ?_ hc h hr v
  · intro l k hl hk
    cases l <;> cases k <;> simp_all [hRank, logLock]
  · intro H hm
    obtain ⟨ps, h1, rfl⟩ := hH H hm
    exact quiet_good h1

/-- The handler takes each of its locks before it has released it. -/
theorem log_first (a b : Nat) (l : GLock) (hl : logLock l) : ∃ x y, pieceOps (logPieces a b) = x ++ .acq l :: y ∧ .rel l ∉ x := by
  cases l with
  | heap => exact ⟨[], _, by simp only [logPieces, List.replicate_succ, List.cons_append, pieceOps, GPiece.ops, heapOps]; rfl, by simp⟩
  | queue =>
    refine ⟨pieceOps (List.replicate (a + 1) .alloc), heapOps b ++ [.rel .queue] ++ [], ?_, ?_⟩
    · rw [logPieces, pieceOps_append]; simp [pieceOps, GPiece.ops]
    · generalize a + 1 = k
      induction k with
      | zero => simp [pieceOps]
      | succ k ih => simp [List.replicate_succ, pieceOps, GPiece.ops, heapOps] at ih ⊢; exact ih
  | hook => exact hl.elim
  | other n => exact hl.elim

theorem considerate_steps {L : Type} [DecidableEq L] (N : L → Prop) (vs : List Nat) : ∀ s : HlState L, Considerate N s (vs.map .step) := by
  induction vs with
  | nil => intro s; trivial
  | cons v r ih => exact fun s => ⟨fun w H he => (by cases he), fun s' _ => ih s'⟩

theorem considerate_append {L : Type} [DecidableEq L] (N : L → Prop) (a b : List (HlLabel L)) : ∀ s : HlState L, Considerate N s a → (∀ s', hlRun s a = some s' → Considerate N s' b) →
    Considerate N s (a ++ b) := by
  induction a with
  | nil => exact fun s _ h => h s rfl
  | cons x r ih =>
    intro s h1 h2
    refine ⟨h1.1, fun s1 hs => ih s1 (h1.2 s1 hs) fun s' h' => h2 s' ?_⟩
    rw [hlRun, hs]; exact h'

theorem handlersOf_append {L : Type} (a b : List (HlLabel L)) : handlersOf (a ++ b) = handlersOf a ++ handlersOf b := by
  induction a with
  | nil => rfl
  | cons x r ih => cases x <;> simp [handlersOf, ih]

theorem handlersOf_steps {L : Type} (vs : List Nat) : handlersOf (vs.map (HlLabel.step (L := L))) = [] := by
  induction vs with
  | nil => rfl
  | cons v r ih => simpa [handlersOf] using ih

/-- **C128** (exact). A program as above, and a signal with a handler that logs, at any moment of any schedule, on a thread that has done the steps `d` of its program. Everything comes to its end in every schedule, if and only if the thread is
not just then inside the heap or inside an operation of the queue of the worker. -/
theorem C128_exact {Q : Nat → List GPart} {n : Nat} {a b : Nat} {vs : List Nat} {s : HlState GLock} {t : Nat} {d r : List (LkOp GLock)} (hn : ∀ v, n ≤ v → Q v = [])
    (h : hlRun (HlState.start fun v => partOps (Q v)) (vs.map .step) = some s) (hr : s.acts t = [r]) (hr0 : r ≠ []) (hd : partOps (Q t) = d ++ r) :
    (∀ (vs' : List Nat) s', hlRun s (.signal t (pieceOps (logPieces a b)) :: vs'.map .step) = some s' → atRest s' → ∀ v, finished s' v) ↔ ¬ inLogLock d := by
  have own : ∀ l, s.owner l = some t ↔ ownsAfter l d := by
    obtain ⟨d', r', h1, h2, h3⟩ := hl_owner h t
    rw [hr] at h1
    simp only [List.cons.injEq, and_true] at h1
    subst h1
    change partOps (Q t) = _ at h2
    rw [hd] at h2
    rw [List.append_cancel_right h2]
    exact h3
  constructor
  · intro hall hin
    obtain ⟨s1, hs1⟩ : ∃ s1, hlStep s (.signal t (pieceOps (logPieces a b))) = some s1 := by
      obtain ⟨x, r, rfl⟩ := List.exists_cons_of_ne_nil hr0
      exact ⟨_, by simp only [hlStep, hr]; rfl⟩
    have hact : ∀ w, w ≠ t → s1.acts w = s.acts w := by
      rcases hlStep_cases hs1 with ⟨u, k, r', as, he, _⟩ | ⟨u, k, r', as, he, _⟩ | ⟨u, x, as, he, _⟩ | ⟨u, H', x, as, he, hp, hne, rfl⟩
      · cases he
      · cases he
      · cases he
      · cases he; exact fun w hw => hl_go_other _ _ hw
    have hidle : ∀ w, max n (t + 1) ≤ w → finished s1 w := by
      intro w hw
      rw [finished, hact w (by omega)]
      obtain ⟨d', r', h1, h2, _⟩ := hl_owner h w
      change partOps (Q w) = _ at h2
      rw [hn w (by omega)] at h2
      rw [h1, (List.append_eq_nil_iff.1 h2.symm).2]
    obtain ⟨vs', s', h1, h2⟩ := C128_reached _ (Nat.le_refl _) hidle
    have hrun : hlRun s (.signal t (pieceOps (logPieces a b)) :: vs'.map .step) = some s' := by rw [hlRun, hs1]; exact h1
    have hfin := hall vs' s' hrun h2 t
    have lost : ∀ l, logLock l → ownsAfter l d → False := by
      intro l hl ho
      obtain ⟨_, x, y, h3⟩ := C128_lost ((own l).2 ho) (log_first a b l hl) (by simp) hrun
      rw [hfin] at h3
      simp at h3
    rcases hin with hin | hin
    · exact lost .heap trivial hin
    · exact lost .queue trivial hin
  · intro hin vs' s' h1 h2
    have hrun : hlRun (HlState.start fun v => partOps (Q v)) (vs.map .step ++ .signal t (pieceOps (logPieces a b)) :: vs'.map .step) = some s' := by
      rw [hlRun_append, h]; exact h1
    refine C128_statement_partial ?_ ?_ hrun h2
    · intro H hm
      rw [handlersOf_append, handlersOf_steps] at hm
      simp only [handlersOf, handlersOf_steps, List.nil_append, List.mem_singleton] at hm
      exact ⟨_, log_hookFree a b, hm⟩
    · refine considerate_append _ _ _ _ (considerate_steps _ _ _) fun s2 hs2 => ?_
      rw [h] at hs2
      cases hs2
      refine ⟨fun v H he l hl ho => ?_, fun s3 _ => considerate_steps _ _ _⟩
      cases he
      rw [own] at ho
      apply hin
      cases l with
      | heap => exact .inl ho
      | queue => exact .inr ho
      | hook => exact hl.elim
      | other n => exact hl.elim

/-- **C128** (negation). A handler that logs, and a thread that the signal finds in `malloc`, or in the midst of a LOG statement: handler and thread wait for ever, whatever the other threads do, and so does every
other thread that still has to allocate memory or to log. -/
theorem C128_negation {Q : Nat → List GPart} {a b : Nat} {vs : List Nat} {s s' : HlState GLock} {t : Nat} {d r : List (LkOp GLock)} {l : GLock} {ls : List (HlLabel GLock)}
    (hl : logLock l) (h : hlRun (HlState.start fun v => partOps (Q v)) (vs.map .step) = some s) (hr : s.acts t = [r]) (hd : partOps (Q t) = (d ++ [.acq l]) ++ r)
    (hls : ∀ H', .signal t H' ∉ ls) (h' : hlRun s (.signal t (pieceOps (logPieces a b)) :: ls) = some s') :
    (∃ q, s'.acts t = [q, r] ∧ q ≠ []) ∧ ∀ v, v ≠ t → (∃ p ∈ s.acts v, takes l p) → ¬ finished s' v := by
  have own : s.owner l = some t := by
    obtain ⟨d', r', h1, h2, h3⟩ := hl_owner h t
    rw [hr] at h1
    simp only [List.cons.injEq, and_true] at h1
    subst h1
    change partOps (Q t) = _ at h2
    rw [hd] at h2
    rw [h3, ← List.append_cancel_right h2]
    exact ⟨d, [], rfl, by simp⟩
  obtain ⟨_, x, y, h3⟩ := C128_lost own (log_first a b l hl) hls h'
  refine ⟨⟨_, by rw [h3, hr], by simp⟩, fun v hv hp hf => ?_⟩
  obtain ⟨p, h4, h5⟩ := C128_others own (log_first a b l hl) hv hp ls s' hls h'
  rw [hf] at h4
  simp only [List.mem_singleton] at h4
  subst h4
  cases h5

/-! Examples. -/

/-- A thread that logs, once. -/
def loggingOnce : Nat → List GPart := fun v => if v = 0 then (logPieces 0 1).map .piece else []

-- it logs, and the signal comes between the statement's allocation and the queue: the handler logs too, and both end
example : ∃ s, hlRun (HlState.start fun v => partOps (loggingOnce v)) ([.step 0, .step 0, .signal 0 (pieceOps (logPieces 0 0))] ++ List.replicate 9 (.step 0)) = some s ∧ finished s 0 :=
  ⟨_, rfl, rfl⟩

-- it comes inside the queue: the handler gets stuck at its own use of the queue
example : ∃ s, hlRun (HlState.start fun v => partOps (loggingOnce v)) ([.step 0, .step 0, .step 0, .signal 0 (pieceOps (logPieces 0 0)), .step 0, .step 0]) = some s ∧
    s.owner .queue = some 0 ∧ s.acts 0 = [[.acq .queue, .rel .queue], [.acq .heap, .rel .heap, .rel .queue]] ∧ hlStep s (.step 0) = none := ⟨_, rfl, rfl, rfl, rfl⟩

-- handlers within handlers
example : ∃ s, hlRun (HlState.start fun v => partOps (loggingOnce v)) [.signal 0 (pieceOps (logPieces 0 0)), .step 0, .step 0, .signal 0 (pieceOps (logPieces 0 0)), .step 0, .step 0, .step 0, .step 0, .step 0] = some s ∧
    (s.acts 0).length = 2 := ⟨_, rfl, rfl⟩

-- the hypotheses of the general theorems can be met: a considerate history that comes to rest
example : Considerate logLock (HlState.start fun v => partOps (loggingOnce v)) ([.signal 0 (pieceOps (logPieces 0 0))] ++ List.replicate 11 (.step 0)) :=
  ⟨fun _ _ _ _ _ => by simp [HlState.start], fun s _ => considerate_steps _ (List.replicate 11 0) s⟩

example (s : HlState GLock) (h : hlRun (HlState.start fun v => partOps (loggingOnce v)) ([.signal 0 (pieceOps (logPieces 0 0))] ++ List.replicate 11 (.step 0)) = some s) (v : Nat) : hlStep s (.step v) = none := by
  by_cases hv : v = 0
  · subst hv; cases h; rfl
  · cases h
    simp [hlStep, HlState.go, HlState.start, Function.update_of_ne hv, loggingOnce, hv, partOps]

-- a handler that sets a hook is not among those that the theorem speaks of
example : ¬ hookFree [.alloc, .hook 1] := fun h => h (.hook 1) (by simp) 1 rfl

-- `logLock` and `inLogLock`
example : logLock .heap ∧ logLock .queue ∧ ¬ logLock .hook ∧ ∀ n, ¬ logLock (.other n) := ⟨trivial, trivial, id, fun _ => id⟩

end G3.Props
