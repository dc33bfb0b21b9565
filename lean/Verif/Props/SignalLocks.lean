import Verif.Spec.SignalLocks
import Mathlib.Data.List.Induction
/-
C122: fatal signals and locks.
-/
namespace G3.Props
open G3 G3.Spec

variable {L : Type} [DecidableEq L]

/-- The three cases of a step. -/
theorem lkStep_cases {s s' : LkState L} {v : Nat} (h : lkStep s v = some s') :
    (∃ l r, s.prog v = .acq l :: r ∧ s.owner l = none ∧ s' = ⟨Function.update s.prog v r, Function.update s.owner l (some v)⟩) ∨
    (∃ l r, s.prog v = .rel l :: r ∧ s.owner l = some v ∧ s' = ⟨Function.update s.prog v r, Function.update s.owner l none⟩) := by
  unfold lkStep at h
  split at h
  · cases h
  · rename_i l r hp
    split at h
    · rename_i ho; cases h; exact .inl ⟨l, r, hp, ho, rfl⟩
    · cases h
  · rename_i l r hp
    split at h
    · rename_i ho; cases h; exact .inr ⟨l, r, hp, ho, rfl⟩
    · cases h

theorem lkRun_ind {I : LkState L → Prop} {ok : Nat → Prop} (hI : ∀ s s' v, I s → ok v → lkStep s v = some s' → I s') :
    ∀ (ls : List Nat) (s s' : LkState L), (∀ v ∈ ls, ok v) → I s → lkRun s ls = some s' → I s' := by
  intro ls
  induction ls with
  | nil => intro s s' _ hs h; cases h; exact hs
  | cons v r ih =>
    intro s s' hv hs h
    unfold lkRun at h
    cases hst : lkStep s v with
    | none => rw [hst] at h; cases h
    | some s1 =>
      rw [hst] at h
      exact ih s1 s' (fun w hw => hv w (List.mem_cons_of_mem _ hw)) (hI s s1 v hs (hv v (List.mem_cons_self ..)) hst) h

theorem ownsAfter_snoc (l : L) (d : List (LkOp L)) (x : LkOp L) :
    ownsAfter l (d ++ [x]) ↔ x = .acq l ∨ (x ≠ .rel l ∧ ownsAfter l d) := by
  constructor
  · rintro ⟨a, b, e, hb⟩
    rcases List.eq_nil_or_concat b with rfl | ⟨b', y, rfl⟩
    · have := List.append_inj' e rfl
      simp only [List.cons.injEq, and_true] at this
      exact .inl this.2
    · have e' : d ++ [x] = (a ++ .acq l :: b') ++ [y] := by simpa using e
      have := List.append_inj' e' rfl
      simp only [List.cons.injEq, and_true] at this
      obtain ⟨h1, rfl⟩ := this
      refine .inr ⟨(hb x (by simp)).2, a, b', h1, fun z hz => hb z (by simp [hz])⟩
  · rintro (rfl | ⟨hx, a, b, rfl, hb⟩)
    · exact ⟨d, [], rfl, by simp⟩
    · by_cases hy : x = .acq l
      · subst hy; exact ⟨a ++ .acq l :: b, [], rfl, by simp⟩
      · refine ⟨a, b ++ [x], by simp, fun z hz => ?_⟩
        rcases List.mem_append.1 hz with hz | hz
        · exact hb z hz
        · rw [List.mem_singleton.1 hz]; exact ⟨hy, hx⟩

/-- What a thread owns is determined by the steps it has made. -/
theorem owner_done {P : Nat → List (LkOp L)} {ls : List Nat} {s : LkState L} (h : lkRun (LkState.start P) ls = some s) (v : Nat) :
    ∃ d, P v = d ++ s.prog v ∧ ∀ l, s.owner l = some v ↔ ownsAfter l d := by
  refine lkRun_ind (I := fun s => ∃ d, P v = d ++ s.prog v ∧ ∀ l, s.owner l = some v ↔ ownsAfter l d) (ok := fun _ => True) ?_ ls _ s (fun _ _ => trivial)
    ⟨[], rfl, fun l => iff_of_false (by simp [LkState.start]) (by rintro ⟨a, b, e, _⟩; simp at e)⟩ h
  rintro s s' w ⟨d, h1, h2⟩ - hst
  rcases lkStep_cases hst with ⟨l, r, hp, ho, rfl⟩ | ⟨l, r, hp, ho, rfl⟩
  · by_cases hw : w = v
    · subst hw
      refine ⟨d ++ [.acq l], by rw [h1, hp]; simp, fun k => ?_⟩
      rw [ownsAfter_snoc]
      by_cases hk : k = l
      · subst hk; simp
      · simp only [Function.update_of_ne hk, h2 k]
        constructor
        · exact fun hx => .inr ⟨by simp, hx⟩
        · rintro (hx | hx)
          · cases hx; exact absurd rfl hk
          · exact hx.2
    · refine ⟨d, by rw [h1]; simp [Function.update_of_ne (Ne.symm hw)], fun k => ?_⟩
      by_cases hk : k = l
      · subst hk
        rw [← h2 k, ho]
        simp [hw]
      · simp only [Function.update_of_ne hk, h2 k]
  · by_cases hw : w = v
    · subst hw
      refine ⟨d ++ [.rel l], by rw [h1, hp]; simp, fun k => ?_⟩
      rw [ownsAfter_snoc]
      by_cases hk : k = l
      · subst hk; simp
      · simp only [Function.update_of_ne hk, h2 k]
        constructor
        · exact fun hx => .inr ⟨by simp [Ne.symm hk], hx⟩
        · rintro (hx | hx)
          · cases hx
          · exact hx.2
    · refine ⟨d, by rw [h1]; simp [Function.update_of_ne (Ne.symm hw)], fun k => ?_⟩
      by_cases hk : k = l
      · subst hk
        rw [← h2 k, ho]
        simp [hw]
      · simp only [Function.update_of_ne hk, h2 k]

/-- **C122** (lost). Whatever a program does: if the signal hits a thread while this owns a lock that the signal handler takes, then in every schedule the handler
never gets further than this lock, and so does every other thread that needs it. -/
theorem C122_lost {P : Nat → List (LkOp L)} {H : List (LkOp L)} {ls ls' : List Nat} {s s' : LkState L} {t u : Nat} {l : L} {d : List (LkOp L)}
    (h : lkRun (LkState.start P) ls = some s) (hd : P t = d ++ s.prog t) (ho : ownsAfter l d) (hH : takes l H)
    (hls : ∀ v ∈ ls', v ≠ t) (h' : lkRun (lkSignal s u H) ls' = some s') :
    takes l (s'.prog u) ∧ ∀ v, v ≠ u → takes l (s.prog v) → v ≠ t → takes l (s'.prog v) := by
  have own : s.owner l = some t := by
    obtain ⟨d', e1, e2⟩ := owner_done h t
    have : d' = d := List.append_cancel_right (e1.symm.trans hd)
    subst this
    exact (e2 l).2 ho
  have key : ∀ v, v ≠ t → takes l ((lkSignal s u H).prog v) → takes l (s'.prog v) := by
    intro v hv hm
    refine (lkRun_ind (I := fun s => s.owner l = some t ∧ takes l (s.prog v)) (ok := fun w => w ≠ t) ?_ ls' (lkSignal s u H) s' hls ⟨own, hm⟩ h').2
    rintro s s' w ⟨h1, h2⟩ hw hst
    rcases lkStep_cases hst with ⟨k, r, hp, hk, rfl⟩ | ⟨k, r, hp, hk, rfl⟩
    · have hkl : l ≠ k := by rintro rfl; rw [h1] at hk; cases hk
      refine ⟨by simp only [Function.update_of_ne hkl, h1], ?_⟩
      by_cases hwv : v = w
      · subst hwv
        simp only [Function.update_self]
        unfold takes at h2 ⊢
        rw [hp] at h2
        rcases List.mem_cons.1 h2 with e | e
        · cases e; exact absurd rfl hkl
        · exact e
      · simp only [Function.update_of_ne hwv]; exact h2
    · have hkl : l ≠ k := by rintro rfl; rw [h1] at hk; cases hk; exact hw rfl
      refine ⟨by simp only [Function.update_of_ne hkl, h1], ?_⟩
      by_cases hwv : v = w
      · subst hwv
        simp only [Function.update_self]
        unfold takes at h2 ⊢
        rw [hp] at h2
        rcases List.mem_cons.1 h2 with e | e
        · cases e
        · exact e
      · simp only [Function.update_of_ne hwv]; exact h2
  have hut : u ≠ t ∨ u = t := by by_cases hx : u = t <;> simp [hx]
  refine ⟨?_, fun v hvu hm hvt => key v hvt (by simp only [lkSignal, Function.update_of_ne hvu]; exact hm)⟩
  rcases hut with hut | hut
  · exact key u hut (by simp only [lkSignal, Function.update_self]; exact hH)
  · subst hut
    -- nobody makes steps for `u`
    have : ∀ (ls : List Nat) (s s' : LkState L), (∀ v ∈ ls, v ≠ u) → lkRun s ls = some s' → s'.prog u = s.prog u := by
      intro ls s s' hv hr
      refine lkRun_ind (I := fun x => x.prog u = s.prog u) (ok := fun w => w ≠ u) ?_ ls s s' hv rfl hr
      rintro a b w e hw hst
      rcases lkStep_cases hst with ⟨_, _, _, _, rfl⟩ | ⟨_, _, _, _, rfl⟩ <;> simp only [Function.update_of_ne (Ne.symm hw), e]
    rw [this ls' _ s' hls h']
    simp only [lkSignal, Function.update_self]
    exact hH

/-- Every thread but `t` goes on in order, and its list of locks is right. -/
def KeepsOrder (rank : L → Nat) (N : L → Prop) (v : Nat) (s : LkState L) : Prop :=
  ∃ held, inLockOrder rank N held (s.prog v) ∧ ∀ l, s.owner l = some v ↔ l ∈ held

theorem orderly_step {rank : L → Nat} {N : L → Prop} {s s' : LkState L} {v w : Nat} (h : KeepsOrder rank N v s) (hst : lkStep s w = some s') :
    KeepsOrder rank N v s' := by
  obtain ⟨held, h1, h2⟩ := h
  rcases lkStep_cases hst with ⟨l, r, hp, ho, rfl⟩ | ⟨l, r, hp, ho, rfl⟩
  · by_cases hw : v = w
    · subst hw
      rw [hp] at h1
      refine ⟨l :: held, by simp only [Function.update_self]; exact h1.2.2, fun k => ?_⟩
      by_cases hk : k = l
      · subst hk; simp
      · simp only [Function.update_of_ne hk, h2 k, List.mem_cons, hk, false_or]
    · refine ⟨held, by simp only [Function.update_of_ne hw]; exact h1, fun k => ?_⟩
      by_cases hk : k = l
      · subst hk
        rw [← h2 k, ho]
        simp [Ne.symm hw]
      · simp only [Function.update_of_ne hk, h2 k]
  · by_cases hw : v = w
    · subst hw
      rw [hp] at h1
      refine ⟨held.filter (· ≠ l), by simp only [Function.update_self]; exact h1.2, fun k => ?_⟩
      by_cases hk : k = l
      · subst hk; simp
      · simp [h2 k, hk]
    · refine ⟨held, by simp only [Function.update_of_ne hw]; exact h1, fun k => ?_⟩
      by_cases hk : k = l
      · subst hk
        rw [← h2 k, ho]
        simp [Ne.symm hw]
      · simp only [Function.update_of_ne hk, h2 k]

/-- Without steps of `t` its locks stay its own, and it gets no new ones. -/
theorem frozen_owner {ls : List Nat} {s s' : LkState L} {t : Nat} (hls : ∀ v ∈ ls, v ≠ t) (h : lkRun s ls = some s') (l : L) :
    s'.owner l = some t ↔ s.owner l = some t := by
  refine lkRun_ind (I := fun x => x.owner l = some t ↔ s.owner l = some t) (ok := fun w => w ≠ t) ?_ ls s s' hls Iff.rfl h
  rintro a b w e hw hst
  rw [← e]
  rcases lkStep_cases hst with ⟨k, _, _, ho, rfl⟩ | ⟨k, _, _, ho, rfl⟩
  · by_cases hk : l = k
    · subst hk; simp [ho, hw]
    · simp only [Function.update_of_ne hk]
  · by_cases hk : l = k
    · subst hk; simp [ho, hw]
    · simp only [Function.update_of_ne hk]

/-- In a program in which threads take locks in order nobody waits for ever for a lock of `N`, unless `t` has one of them. -/
theorem no_owner {rank : L → Nat} {N : L → Prop} {B : Nat} {s : LkState L} {t : Nat} (hB : ∀ l, rank l ≤ B) (ho : ∀ v, v ≠ t → KeepsOrder rank N v s)
    (ht : ∀ l, N l → s.owner l ≠ some t) (hs : stuckBut t s) : ∀ (k : Nat) (l : L), N l → B ≤ rank l + k → s.owner l = none := by
  intro k
  induction k with
  | zero =>
    intro l hN hk
    cases hv : s.owner l with
    | none => rfl
    | some v =>
      have hvt : v ≠ t := fun e => ht l hN (e ▸ hv)
      obtain ⟨held, h1, h2⟩ := ho v hvt
      have hst := hs v hvt
      unfold lkStep at hst
      have hl := (h2 l).1 hv
      cases hp : s.prog v with
      | nil => rw [hp] at h1; rw [h1] at hl; cases hl
      | cons x r =>
        rw [hp] at h1 hst
        cases x with
        | rel l' => simp only [(h2 l').2 h1.1, if_true] at hst; cases hst
        | acq l' =>
          have := h1.1 l hl
          have := hB l'
          omega
  | succ k ih =>
    intro l hN hk
    cases hv : s.owner l with
    | none => rfl
    | some v =>
      have hvt : v ≠ t := fun e => ht l hN (e ▸ hv)
      obtain ⟨held, h1, h2⟩ := ho v hvt
      have hst := hs v hvt
      unfold lkStep at hst
      have hl := (h2 l).1 hv
      cases hp : s.prog v with
      | nil => rw [hp] at h1; rw [h1] at hl; cases hl
      | cons x r =>
        rw [hp] at h1 hst
        cases x with
        | rel l' => simp only [(h2 l').2 h1.1, if_true] at hst; cases hst
        | acq l' =>
          have h3 := h1.1 l hl
          have h4 := ih l' (h1.2.1 ⟨l, hl, hN⟩) (by omega)
          simp only [h4, if_true] at hst
          cases hst

/-- **C122** (through, partial). If the thread that the signal hits owns none of the locks `N`, to which those of the handler belong, and all threads take and release locks in order,
then the handler comes to its end: it has done so in every state in which nobody else can make a step, and such a state comes in every schedule
(`C122_bounded`). Missing: the same for the other threads, for which it is false (`C122_lost`). -/
theorem C122_through_partial {P : Nat → List (LkOp L)} {H : List (LkOp L)} {rank : L → Nat} {N : L → Prop} {B : Nat} {ls ls' : List Nat} {s s' : LkState L}
    {t u : Nat} {d : List (LkOp L)} (hB : ∀ l, rank l ≤ B) (hP : ∀ v, inLockOrder rank N [] (P v)) (hH : inLockOrder rank N [] H) (hN : ∀ l, takes l H → N l)
    (hu : P u = []) (hut : u ≠ t) (h : lkRun (LkState.start P) ls = some s) (hd : P t = d ++ s.prog t) (ho : ∀ l, N l → ¬ ownsAfter l d)
    (hls : ∀ v ∈ ls', v ≠ t) (h' : lkRun (lkSignal s u H) ls' = some s') (hs : stuckBut t s') : s'.prog u = [] := by
  have h0 : ∀ v, KeepsOrder rank N v s := fun v =>
    lkRun_ind (I := KeepsOrder rank N v) (ok := fun _ => True) (fun a b w ha _ hst => orderly_step ha hst) ls _ s (fun _ _ => trivial)
      ⟨[], hP v, fun l => by simp [LkState.start]⟩ h
  have hu0 : ∀ l, s.owner l ≠ some u := by
    intro l hl
    obtain ⟨d', e1, e2⟩ := owner_done h u
    rw [hu] at e1
    have : d' = [] := (List.append_eq_nil_iff.1 e1.symm).1
    subst this
    obtain ⟨a, b, e, _⟩ := (e2 l).1 hl
    simp at e
  have h1 : ∀ v, v ≠ t → KeepsOrder rank N v s' := by
    intro v hv
    refine lkRun_ind (I := KeepsOrder rank N v) (ok := fun _ => True) (fun a b w ha _ hst => orderly_step ha hst) ls' _ s' (fun _ _ => trivial) ?_ h'
    by_cases hvu : v = u
    · subst hvu
      exact ⟨[], by simp only [lkSignal, Function.update_self]; exact hH, fun l => iff_of_false (hu0 l) (by simp)⟩
    · obtain ⟨held, a, b⟩ := h0 v
      exact ⟨held, by simp only [lkSignal, Function.update_of_ne hvu]; exact a, b⟩
  have ht : ∀ l, N l → s'.owner l ≠ some t := by
    intro l hl he
    have he' := (frozen_owner hls h' l).1 he
    obtain ⟨d', e1, e2⟩ := owner_done h t
    have : d' = d := List.append_cancel_right (e1.symm.trans hd)
    subst this
    exact ho l hl ((e2 l).1 he')
  have hfree := no_owner hB h1 ht hs
  have hsuf : ∀ l, takes l (s'.prog u) → takes l H := by
    intro l
    refine lkRun_ind (I := fun x => takes l (x.prog u) → takes l H) (ok := fun _ => True) ?_ ls' _ s' (fun _ _ => trivial)
      (fun hx => by simpa only [lkSignal, Function.update_self] using hx) h'
    rintro a b w e - hst hx
    apply e
    rcases lkStep_cases hst with ⟨k, r, hp, _, rfl⟩ | ⟨k, r, hp, _, rfl⟩
    · by_cases hwu : u = w
      · subst hwu; unfold takes; rw [hp]; simp only [Function.update_self] at hx; exact List.mem_cons_of_mem _ hx
      · simpa only [Function.update_of_ne hwu] using hx
    · by_cases hwu : u = w
      · subst hwu; unfold takes; rw [hp]; simp only [Function.update_self] at hx; exact List.mem_cons_of_mem _ hx
      · simpa only [Function.update_of_ne hwu] using hx
  obtain ⟨held, a, b⟩ := h1 u hut
  have hst := hs u hut
  unfold lkStep at hst
  cases hp : s'.prog u with
  | nil => rfl
  | cons x r =>
    rw [hp] at a hst
    cases x with
    | rel l => simp only [(b l).2 a.1, if_true] at hst; cases hst
    | acq l =>
      have hl := hfree B l (hN l (hsuf l (by unfold takes; rw [hp]; exact List.mem_cons_self ..))) (by omega)
      simp only [hl, if_true] at hst
      cases hst

/-- The number of steps left to the first `n` threads. -/
def stepsLeft (s : LkState L) : Nat → Nat
  | 0 => 0
  | n + 1 => stepsLeft s n + (s.prog n).length

theorem stepsLeft_step {s s' : LkState L} {v : Nat} (h : lkStep s v = some s') : ∀ n, v < n → stepsLeft s n = stepsLeft s' n + 1 := by
  have hp : ∃ x, s.prog v = x :: s'.prog v ∧ ∀ w, w ≠ v → s'.prog w = s.prog w := by
    rcases lkStep_cases h with ⟨l, r, hp, _, rfl⟩ | ⟨l, r, hp, _, rfl⟩ <;>
      exact ⟨_, by simp only [hp, Function.update_self]; rfl, fun w hw => by simp only [Function.update_of_ne hw]⟩
  obtain ⟨x, h1, h2⟩ := hp
  have same : ∀ n, n ≤ v → stepsLeft s n = stepsLeft s' n := by
    intro n
    induction n with
    | zero => exact fun _ => rfl
    | succ n ih =>
      intro hn
      show stepsLeft s n + _ = stepsLeft s' n + _
      rw [ih (by omega), h2 n (by omega)]
  intro n
  induction n with
  | zero => intro hn; omega
  | succ n ih =>
    intro hn
    show stepsLeft s n + _ = stepsLeft s' n + _ + 1
    by_cases hv : v = n
    · subst hv
      rw [same v (Nat.le_refl _), h1]
      simp only [List.length_cons]
      omega
    · rw [ih (by omega), h2 n (Ne.symm hv)]
      omega

theorem step_idle {s : LkState L} {v : Nat} (h : s.prog v = []) : lkStep s v = none := by
  unfold lkStep; rw [h]

theorem idle_step {s s' : LkState L} {v n : Nat} (h : lkStep s v = some s') (hn : ∀ w, n ≤ w → s.prog w = []) : v < n ∧ ∀ w, n ≤ w → s'.prog w = [] := by
  have hv : v < n := by
    by_contra hx
    rw [step_idle (hn v (by omega))] at h
    cases h
  refine ⟨hv, fun w hw => ?_⟩
  have hne : w ≠ v := by omega
  rcases lkStep_cases h with ⟨l, r, hp, _, rfl⟩ | ⟨l, r, hp, _, rfl⟩ <;> simp only [Function.update_of_ne hne] <;> exact hn w hw

/-- **C122** (bounded). With `n` threads no schedule is longer than the steps that are left to them. -/
theorem C122_bounded {n : Nat} {ls : List Nat} : ∀ {s s' : LkState L}, (∀ w, n ≤ w → s.prog w = []) → lkRun s ls = some s' →
    stepsLeft s n = stepsLeft s' n + ls.length := by
  induction ls with
  | nil => intro s s' _ h; cases h; rfl
  | cons v r ih =>
    intro s s' hn h
    unfold lkRun at h
    cases hst : lkStep s v with
    | none => rw [hst] at h; cases h
    | some s1 =>
      rw [hst] at h
      obtain ⟨hv, hn1⟩ := idle_step hst hn
      rw [stepsLeft_step hst n hv, ih hn1 h, List.length_cons]
      omega

/-- **C122** (reached). Every schedule without steps of `t` can be continued until nobody but `t` can make a step. -/
theorem C122_reached {n : Nat} (t : Nat) : ∀ (k : Nat) (s : LkState L), stepsLeft s n = k → (∀ w, n ≤ w → s.prog w = []) →
    ∃ ls s', (∀ v ∈ ls, v ≠ t) ∧ lkRun s ls = some s' ∧ stuckBut t s' := by
  intro k
  induction k with
  | zero =>
    intro s hk hn
    refine ⟨[], s, by simp, rfl, fun v _ => ?_⟩
    cases hst : lkStep s v with
    | none => rfl
    | some s1 =>
      have := stepsLeft_step hst n (idle_step hst hn).1
      omega
  | succ k ih =>
    intro s hk hn
    by_cases hs : stuckBut t s
    · exact ⟨[], s, by simp, rfl, hs⟩
    · unfold stuckBut at hs
      push Not at hs
      obtain ⟨v, hv, hne⟩ := hs
      cases hst : lkStep s v with
      | none => exact absurd hst hne
      | some s1 =>
        obtain ⟨h1, h2⟩ := idle_step hst hn
        have := stepsLeft_step hst n h1
        obtain ⟨ls, s', a, b, c⟩ := ih s1 (by omega) h2
        refine ⟨v :: ls, s', fun w hw => ?_, ?_, c⟩
        · rcases List.mem_cons.1 hw with rfl | hw
          · exact hv
          · exact a w hw
        · unfold lkRun; rw [hst]; exact b

/-- The order of the locks of a program with g3log. -/
def gRank : GLock → Nat
  | .heap => 2
  | .hook => 1
  | .queue => 1
  | .other _ => 0

/-- The locks that the library takes in a signal handler. -/
def gNeeds : GLock → Prop
  | .other _ => False
  | _ => True

theorem heap_orderly (k : Nat) : ∀ (held : List GLock) (r : List (LkOp GLock)), (∀ h ∈ held, gRank h < 2) → inLockOrder gRank gNeeds held r →
    inLockOrder gRank gNeeds held (heapOps k ++ r) := by
  induction k with
  | zero => exact fun held r _ h => h
  | succ k ih =>
    intro held r hh h
    have hf : (GLock.heap :: held).filter (· ≠ .heap) = held := by
      rw [List.filter_cons_of_neg (by simp), List.filter_eq_self]
      intro a ha
      have := hh a ha
      cases a <;> simp [gRank] at this ⊢
    refine ⟨hh, fun _ => trivial, List.mem_cons_self .., ?_⟩
    rw [hf]
    exact ih held r hh h

theorem section_orderly (l : GLock) (hl : gRank l = 1) (hn : gNeeds l) (k : Nat) (held : List GLock) (r : List (LkOp GLock))
    (hh : ∀ h ∈ held, gRank h = 0) (h : inLockOrder gRank gNeeds held r) :
    inLockOrder gRank gNeeds held (.acq l :: (heapOps k ++ [.rel l]) ++ r) := by
  have hf : (l :: held).filter (· ≠ l) = held := by
    rw [List.filter_cons_of_neg (by simp), List.filter_eq_self]
    intro a ha
    have := hh a ha
    have : a ≠ l := by rintro rfl; omega
    simpa using this
  rw [List.cons_append, List.append_assoc]
  refine ⟨fun x hx => by rw [hh x hx, hl]; omega, fun _ => hn, ?_⟩
  refine heap_orderly k _ _ (fun x hx => ?_) ⟨List.mem_cons_self .., ?_⟩
  · rcases List.mem_cons.1 hx with rfl | hx
    · omega
    · have := hh x hx; omega
  · rw [hf]; exact h

theorem piece_orderly (p : GPiece) (held : List GLock) (r : List (LkOp GLock)) (hh : ∀ h ∈ held, gRank h = 0) (h : inLockOrder gRank gNeeds held r) :
    inLockOrder gRank gNeeds held (p.ops ++ r) := by
  cases p with
  | alloc => exact heap_orderly 1 held r (fun x hx => by rw [hh x hx]; omega) h
  | hook k => exact section_orderly .hook rfl trivial k held r hh h
  | queue k => exact section_orderly .queue rfl trivial k held r hh h

theorem pieces_orderly (ps : List GPiece) (held : List GLock) (r : List (LkOp GLock)) (hh : ∀ h ∈ held, gRank h = 0) (h : inLockOrder gRank gNeeds held r) :
    inLockOrder gRank gNeeds held (pieceOps ps ++ r) := by
  induction ps with
  | nil => exact h
  | cons p ps ih =>
    show inLockOrder gRank gNeeds held (p.ops ++ pieceOps ps ++ r)
    rw [List.append_assoc]
    exact piece_orderly p held _ hh ih

theorem parts_orderly (ps : List GPart) : inLockOrder gRank gNeeds [] (partOps ps) := by
  induction ps with
  | nil => rfl
  | cons p ps ih =>
    cases p with
    | piece p => exact piece_orderly p [] _ (by simp) ih
    | under n qs =>
      show inLockOrder gRank gNeeds [] (.acq (.other n) :: (pieceOps qs ++ [.rel (.other n)]) ++ partOps ps)
      rw [List.cons_append, List.append_assoc]
      refine ⟨by simp, by simp, pieces_orderly qs _ _ (by simp [gRank]) ⟨List.mem_cons_self .., ?_⟩⟩
      simpa using ih

theorem handler_orderly (a b c d : Nat) : inLockOrder gRank gNeeds [] (pieceOps (handlerPieces a b c d)) := by
  have := pieces_orderly (handlerPieces a b c d) [] [] (by simp) rfl
  rwa [List.append_nil] at this

theorem pieceOps_append (p q : List GPiece) : pieceOps (p ++ q) = pieceOps p ++ pieceOps q := by
  induction p with
  | nil => rfl
  | cons x p ih => simp [pieceOps, ih]

/-- The locks that the handler takes. -/
theorem handler_takes (a b c d : Nat) (l : GLock) : takes l (pieceOps (handlerPieces a b c d)) ↔ gNeeds l := by
  constructor
  · have heap : ∀ k, takes l (heapOps k) → gNeeds l := by
      intro k
      induction k with
      | zero => intro h; cases h
      | succ k ih =>
        intro h
        unfold takes heapOps at h
        simp only [List.mem_cons, LkOp.acq.injEq, reduceCtorEq, false_or] at h
        rcases h with rfl | h
        · trivial
        · exact ih h
    have all : ∀ ps, takes l (pieceOps ps) → gNeeds l := by
      intro ps
      induction ps with
      | nil => intro h; cases h
      | cons p ps ih =>
        intro h
        rcases List.mem_append.1 h with h | h
        · cases p with
          | alloc => exact heap 1 h
          | hook k =>
            simp only [GPiece.ops, List.mem_cons, LkOp.acq.injEq, List.mem_append, reduceCtorEq, List.not_mem_nil, or_false] at h
            rcases h with rfl | h
            · trivial
            · exact heap k h
          | queue k =>
            simp only [GPiece.ops, List.mem_cons, LkOp.acq.injEq, List.mem_append, reduceCtorEq, List.not_mem_nil, or_false] at h
            rcases h with rfl | h
            · trivial
            · exact heap k h
        · exact ih h
    exact all _
  · intro h
    unfold takes handlerPieces
    rw [pieceOps_append]
    cases l with
    | heap => exact List.mem_append_left _ (by simp [List.replicate_succ, pieceOps, GPiece.ops, heapOps])
    | hook => exact List.mem_append_right _ (by simp [pieceOps, GPiece.ops])
    | queue =>
      refine List.mem_append_right _ ?_
      show _ ∈ (GPiece.hook b).ops ++ pieceOps (List.replicate (c + 1) .alloc ++ [.queue d])
      rw [pieceOps_append]
      exact List.mem_append_right _ (List.mem_append_right _ (by simp [pieceOps, GPiece.ops]))
    | other n => exact h.elim

/-- **C122** (exact). A program of any number of threads that log, allocate, set hooks and use locks of their own, also around calls of the library. A fatal signal
hits thread `t` at any moment. Then the handler hands its message over in every schedule, if and only if the thread is not just then
inside the heap, inside `setFatalPreLoggingHook` or inside an operation of the queue of the worker. -/
theorem C122_exact {Q : Nat → List GPart} {n : Nat} {a b c e : Nat} {ls : List Nat} {s : LkState GLock} {t u : Nat} {d : List (LkOp GLock)}
    (hn : ∀ v, n ≤ v → Q v = []) (hu : Q u = []) (hut : u ≠ t) (h : lkRun (LkState.start fun v => partOps (Q v)) ls = some s)
    (hd : partOps (Q t) = d ++ s.prog t) :
    (∀ ls' s', (∀ v ∈ ls', v ≠ t) → lkRun (lkSignal s u (pieceOps (handlerPieces a b c e))) ls' = some s' → stuckBut t s' → s'.prog u = []) ↔
      ¬ inLibraryLock d := by
  constructor
  · intro hall hin
    have hidle : ∀ w, max n (u + 1) ≤ w → (lkSignal s u (pieceOps (handlerPieces a b c e))).prog w = [] := by
      intro w hw
      have hwu : w ≠ u := by omega
      simp only [lkSignal, Function.update_of_ne hwu]
      obtain ⟨d', e1, _⟩ := owner_done h w
      change partOps (Q w) = _ at e1
      rw [hn w (by omega)] at e1
      exact (List.append_eq_nil_iff.1 e1.symm).2
    obtain ⟨ls', s', h1, h2, h3⟩ := C122_reached t _ _ rfl hidle
    have hnil := hall ls' s' h1 h2 h3
    have lost : ∀ l, gNeeds l → ownsAfter l d → False := by
      intro l hl ho
      have := (C122_lost h hd ho ((handler_takes a b c e l).2 hl) h1 h2).1
      rw [hnil] at this
      cases this
    rcases hin with hin | hin | hin
    · exact lost .heap trivial hin
    · exact lost .hook trivial hin
    · exact lost .queue trivial hin
  · intro hin ls' s' h1 h2 h3
    refine C122_through_partial (rank := gRank) (N := gNeeds) (B := 2) (fun l => by cases l <;> simp [gRank]) (fun v => parts_orderly (Q v))
      (handler_orderly a b c e) (fun l => (handler_takes a b c e l).1) (by show partOps (Q u) = []; rw [hu]; rfl) hut h hd ?_ h1 h2 h3
    intro l hl ho
    apply hin
    cases l with
    | heap => exact .inl ho
    | hook => exact .inr (.inl ho)
    | queue => exact .inr (.inr ho)
    | other n => exact hl.elim

/-- **C122** (negation). The message is never handed over, in any schedule and whatever the other threads do, and every other thread that still has to allocate memory
comes to a stop, if the signal hits a thread inside the heap: so a program that crashes in `malloc` or `free`, as it does when it has
destroyed its heap, is not reported but hangs. -/
theorem C122_negation {Q : Nat → List GPart} {a b c e : Nat} {ls ls' : List Nat} {s s' : LkState GLock} {t u : Nat} {pre : List (LkOp GLock)}
    (h : lkRun (LkState.start fun v => partOps (Q v)) ls = some s) (hd : partOps (Q t) = (pre ++ [.acq .heap]) ++ s.prog t)
    (hls : ∀ v ∈ ls', v ≠ t) (h' : lkRun (lkSignal s u (pieceOps (handlerPieces a b c e))) ls' = some s') :
    s'.prog u ≠ [] ∧ ∀ v, v ≠ u → v ≠ t → takes .heap (s.prog v) → s'.prog v ≠ [] := by
  have ho : ownsAfter GLock.heap (pre ++ [.acq .heap]) := ⟨pre, [], rfl, by simp⟩
  obtain ⟨h1, h2⟩ := C122_lost h hd ho ((handler_takes a b c e .heap).2 trivial) hls h'
  refine ⟨fun hx => ?_, fun v hv hvt hm hx => ?_⟩
  · rw [hx] at h1; cases h1
  · have := h2 v hv hm hvt
    rw [hx] at this; cases this

/-- **C122** (own locks). Locks of the program do no harm, not even those it holds while it logs: between its allocations and calls of the library a thread that owns any such
lock may be hit at any time. -/
theorem C122_own_lock {ps qs : List GPiece} {m : Nat} : ¬ inLibraryLock (pieceOps ps ++ .acq (.other m) :: pieceOps qs) := by
  have heap : ∀ (k : Nat) (l : GLock) (d : List (LkOp GLock)), ¬ ownsAfter l d → ¬ ownsAfter l (d ++ heapOps k) := by
    intro k
    induction k with
    | zero => intro l d hd; simpa [heapOps] using hd
    | succ k ih =>
      intro l d hd
      have e : d ++ heapOps (k + 1) = (d ++ [.acq .heap] ++ [.rel .heap]) ++ heapOps k := by simp [heapOps]
      rw [e]
      apply ih
      rw [ownsAfter_snoc, ownsAfter_snoc]
      rintro (hx | ⟨h1, hx | ⟨_, hx⟩⟩)
      · cases hx
      · cases hx; exact h1 rfl
      · exact hd hx
  have sect : ∀ (k : Nat) (l' l : GLock) (d : List (LkOp GLock)), ¬ ownsAfter l d → ¬ ownsAfter l (d ++ .acq l' :: (heapOps k ++ [.rel l'])) := by
    intro k l' l d hd
    have e : d ++ .acq l' :: (heapOps k ++ [.rel l']) = ((d ++ [.acq l']) ++ heapOps k) ++ [.rel l'] := by simp
    rw [e, ownsAfter_snoc]
    rintro (hx | ⟨h1, hx⟩)
    · cases hx
    · refine heap k l _ ?_ hx
      rw [ownsAfter_snoc]
      rintro (hy | ⟨_, hy⟩)
      · cases hy; exact h1 rfl
      · exact hd hy
  have pieces : ∀ (ps : List GPiece) (l : GLock) (d : List (LkOp GLock)), ¬ ownsAfter l d → ¬ ownsAfter l (d ++ pieceOps ps) := by
    intro ps
    induction ps with
    | nil => intro l d hd; simpa [pieceOps] using hd
    | cons p ps ih =>
      intro l d hd
      show ¬ ownsAfter l (d ++ (p.ops ++ pieceOps ps))
      rw [← List.append_assoc]
      apply ih
      cases p with
      | alloc => exact heap 1 l d hd
      | hook k => exact sect k .hook l d hd
      | queue k => exact sect k .queue l d hd
  have main : ∀ l, gNeeds l → ¬ ownsAfter l (pieceOps ps ++ .acq (.other m) :: pieceOps qs) := by
    intro l hl
    have e : pieceOps ps ++ .acq (GLock.other m) :: pieceOps qs = (([] ++ pieceOps ps) ++ [.acq (.other m)]) ++ pieceOps qs := by simp
    rw [e]
    apply pieces
    rw [ownsAfter_snoc]
    rintro (hx | ⟨_, hx⟩)
    · cases hx; exact hl
    · exact pieces ps l [] (by rintro ⟨x, y, e, _⟩; simp at e) hx
  rintro (h | h | h)
  · exact main .heap trivial h
  · exact main .hook trivial h
  · exact main .queue trivial h

/-! Examples: a program of two threads that log, one of them under a lock of its own and after setting a hook; the first one is hit while it allocates, or
between its steps. -/

def exParts : Nat → List GPart
  | 0 => (logPieces 1 1).map .piece
  | 1 => [.piece (.hook 1), .under 7 (logPieces 0 2)]
  | _ => []

example : ∀ v, 2 ≤ v → exParts v = [] := by
  intro v hv
  match v, hv with
  | n + 2, _ => rfl

/-- Thread 0 has just entered the heap. -/
example : ∃ s, lkRun (LkState.start fun v => partOps (exParts v)) [1, 0] = some s ∧
    partOps (exParts 0) = ([] ++ [.acq .heap]) ++ s.prog 0 ∧ inLibraryLock ([] ++ [.acq .heap]) ∧ takes .heap (s.prog 1) :=
  ⟨_, rfl, rfl, .inl ⟨[], [], rfl, by simp⟩, .head _⟩

/-- Thread 0 has allocated once and is between two steps, while thread 1 owns its own lock and that of the heap. -/
example : ∃ s, lkRun (LkState.start fun v => partOps (exParts v)) [0, 0, 1, 1, 1, 1, 1, 1] = some s ∧
    partOps (exParts 0) = [.acq .heap, .rel .heap] ++ s.prog 0 ∧ ¬ inLibraryLock [.acq .heap, .rel .heap] ∧ s.owner (.other 7) = some 1 ∧ s.owner .heap = some 1 := by
  refine ⟨_, rfl, rfl, ?_, rfl, rfl⟩
  have : ∀ l : GLock, ¬ ownsAfter l [.acq .heap, .rel .heap] := by
    intro l
    rw [show ([.acq .heap, .rel .heap] : List (LkOp GLock)) = ([] ++ [.acq .heap]) ++ [.rel .heap] from rfl, ownsAfter_snoc, ownsAfter_snoc]
    rintro (hx | ⟨h1, hx | ⟨_, a, b, e, _⟩⟩)
    · cases hx
    · cases hx; exact h1 rfl
    · simp at e
  rintro (h | h | h) <;> exact this _ h

example : inLockOrder gRank gNeeds [] (partOps (exParts 1)) := parts_orderly _
example : ∀ l, gRank l ≤ 2 := fun l => by cases l <;> simp [gRank]

end G3.Props
