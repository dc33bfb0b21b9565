import Verif.Props.ActiveLocks
/-
A fatal signal interrupts a thread at any point of a logging call: C69. The signal handler (/repo/src/crashhandler_unix.cpp:62-85)
runs on the interrupted thread and sends the fatal message through the same queue, /repo/src/g3log.cpp:216-230,
/repo/src/logworker.cpp:170-173; the interrupted code makes no further step, because the handler never returns. The handler is
treated as a thread of its own; locking a mutex that the interrupted code of the same thread holds blocks forever, as with the
default mutex of POSIX systems (the standard leaves it undefined).
-/
namespace G3.Props
open G3 G3.Spec

/-- Specification: is this a step of thread `t`? (The end of the destructor is nobody's step here: these theorems are about a program
that is not yet destroying the worker.) -/
def stepOf (t : Nat) : CLabel → Bool
  | .send u _ => u = t
  | .dtorSend u => u = t
  | .mem l => qThread l = t
  | .enter => t = 0
  | .finish => t = 0
  | .leave => t = 0
  | .join => false

/-- As long as a thread that holds the mutex makes no step, the queue stays as it is. -/
theorem frozen_step (c c' : CState) (l : CLabel) (t : Nat) (p : QPc ATask) (hi : CInv c) (hq : QInv c.qs)
    (hp : c.qs.pcs[t]? = some p) (hh : holds p = true) (hl : stepOf t l = false) (h : cStep c l = some c') :
    QInv c'.qs ∧ c'.qs.pcs[t]? = some p ∧ c'.qs.q = c.qs.q ∧ pushedWith c'.qs.trace = pushedWith c.qs.trace := by
  have hown := (hq.lock t p hp).1 hh
  have call : ∀ (u : Nat) op q, u ≠ t → qStep c.qs (.call u op) = some q →
      QInv q ∧ q.pcs[t]? = some p ∧ q.q = c.qs.q ∧ pushedWith q.trace = pushedWith c.qs.trace := by
    intro u op q hu hs
    obtain ⟨h1, h2, h3, h4⟩ := call_shape hs
    exact ⟨inv_step _ _ _ hq hs, by rw [h2, List.getElem?_set_ne hu]; exact hp, h3, h4⟩
  cases l with
  | send u i =>
    simp only [stepOf, decide_eq_false_iff_not] at hl
    simp only [cStep] at h
    split at h
    · cases h
    · rw [Option.map_eq_some_iff] at h
      obtain ⟨q, hs, rfl⟩ := h
      exact call u _ q hl hs
  | dtorSend u =>
    simp only [stepOf, decide_eq_false_iff_not] at hl
    simp only [cStep] at h
    split at h
    · rw [Option.map_eq_some_iff] at h
      obtain ⟨q, hs, rfl⟩ := h
      exact call u _ q hl hs
    · cases h
  | enter =>
    simp only [stepOf, decide_eq_false_iff_not] at hl
    simp only [cStep] at h
    split at h
    · rw [Option.map_eq_some_iff] at h
      obtain ⟨q, hs, rfl⟩ := h
      exact call 0 _ q (Ne.symm hl) hs
    · cases h
  | mem l =>
    simp only [stepOf, decide_eq_false_iff_not] at hl
    have key : (∀ t op, l ≠ .call t op) → ∀ q, qStep c.qs l = some q →
        QInv q ∧ q.pcs[t]? = some p ∧ q.q = c.qs.q ∧ pushedWith q.trace = pushedWith c.qs.trace := by
      intro hnc q hs
      refine ⟨inv_step _ _ _ hq hs, ?_⟩
      have hm := qmove_of c.qs q l hnc hi.used hs
      have noOther : ∀ (u : Nat) (p' : QPc ATask), u ≠ t → c.qs.pcs[u]? = some p' → holds p' = true → False := by
        intro u p' hne hu hh'
        have := (hq.lock u p' hu).1 hh'
        rw [hown] at this
        exact hne (Option.some.inj this).symm
      cases hm with
      | quiet _ _ u r r' hu hquiet hpcs hqq htr hun hsp hth hnw =>
        have hut : u ≠ t := by rw [← hth]; exact hl
        exact ⟨by rw [hpcs, List.getElem?_set_ne hut]; exact hp, hqq, htr⟩
      | push _ u x hu hpcs hqq htr => exact (noOther u _ hl hu rfl).elim
      | pop _ u x hu hpcs hqq htr => exact (noOther u _ hl hu rfl).elim
      | ret _ u r hu hpcs hqq htr => exact (noOther u _ hl hu rfl).elim
      | notify _ u v hu hw hpcs hqq htr =>
        have hvt : v ≠ t := by rintro rfl; rw [hp] at hw; cases hw; cases hh
        refine ⟨?_, hqq, htr⟩
        rw [hpcs, List.getElem?_set_ne hvt, List.getElem?_set_ne (show u ≠ t from hl)]
        exact hp
    cases l with
    | call t op => simp only [cStep] at h; cases h
    | _ =>
      simp only [cStep] at h
      split at h
      · cases h
      · rw [Option.map_eq_some_iff] at h
        obtain ⟨q, hs, rfl⟩ := h
        exact key (by intro t op hh; cases hh) q hs
  | _ =>
    simp only [cStep] at h
    repeat' (split at h)
    all_goals first
      | (cases h; done)
      | (cases h; exact ⟨hq, hp, rfl, rfl⟩)

/-- C69 does not hold: if the signal arrives while the thread owns the mutex of the queue (between lock and unlock of any of its
operations), then whatever all other threads and the handler do, in every schedule: no message sent from then on, by anybody, the
fatal message included, ever enters the queue, and nothing that is in the queue is ever taken out of it. -/
theorem C69_lock_held (n : Nat) (ls ls' : List CLabel) (c c' : CState) (h : cRun (CState.start n) ls = some c) (t : Nat)
    (p : QPc ATask) (hp : c.qs.pcs[t]? = some p) (hh : (∃ op, p = .crit op) ∨ ∃ op r, p = .fin op r)
    (hls : ∀ l ∈ ls', stepOf t l = false) (h' : cRun c ls' = some c') :
    pushedWith c'.qs.trace = pushedWith c.qs.trace ∧ c'.qs.q = c.qs.q := by
  have hh : holds p = true := by
    rcases hh with ⟨op, rfl⟩ | ⟨op, r, rfl⟩ <;> rfl
  have hi := (C68_refines n ls c h).1
  obtain ⟨qls, hq⟩ := queue_reached n ls c h
  have hqi : QInv c.qs := inv_run n qls c.qs hq
  clear h hq
  induction ls' generalizing c with
  | nil => cases h'; exact ⟨rfl, rfl⟩
  | cons l ls' ih =>
    simp only [cRun] at h'
    cases hs : cStep c l with
    | none => rw [hs] at h'; cases h'
    | some u =>
      rw [hs] at h'
      obtain ⟨h1, h2, h3, h4⟩ := frozen_step c u l t p hi hqi hp hh (hls l (by simp)) hs
      have := ih u h2 (fun x hx => hls x (List.mem_cons_of_mem _ hx)) h' (cinv_step c u l hi hs) h1
      rw [← h3, ← h4]
      exact this

/-- C69 does not hold, a concrete case: thread 1 is interrupted inside `push`; its handler (2) and thread 3 try to log. -/
theorem C69_negation : ∃ (ls : List CLabel) (c : CState), cRun (CState.start 4) ls = some c ∧
    (∃ op, c.qs.pcs[(1 : Nat)]? = some (.crit op)) ∧
    (∃ c1, cRun c [.send 2 99, .send 3 5, .enter] = some c1) ∧
    ∀ ls' c', (∀ l ∈ ls', stepOf 1 l = false) → cRun c ls' = some c' → ¬ ATask.user 99 ∈ (pushedWith c'.qs.trace).map Prod.snd := by
  refine ⟨[.send 1 7, .mem (.lock 1)], _, rfl, ⟨_, rfl⟩, ⟨_, rfl⟩, ?_⟩
  intro ls' c' hls h'
  have := C69_lock_held 4 [.send 1 7, .mem (.lock 1)] ls' _ c' rfl 1 _ rfl (Or.inl ⟨_, rfl⟩) hls h'
  rw [this.1]
  simp [pushedWith, CState.start, QState.start]

/-! ### The lock is free -/

/-- A push that will still notify. -/
def willNotify : QPc ATask → Bool
  | .fin (.push _) _ => true
  | .notify => true
  | _ => false

/-- Either the handler's own push is still to come, or a waiting consumer has nothing to do, or somebody will notify it. -/
def WakeK (t u : Nat) (c : CState) : Prop :=
  (∃ x, c.qs.pcs[u]? = some (.want (.push x)) ∨ c.qs.pcs[u]? = some (.crit (.push x))) ∨
  (c.qs.pcs[(0 : Nat)]? = some .waiting → c.qs.q = [] ∨ ∃ v p, v ≠ t ∧ c.qs.pcs[v]? = some p ∧ willNotify p = true)

theorem wakeK_call {t u w : Nat} {c : CState} {op : QOp ATask} {q : QState ATask} (hk : WakeK t u c) (hwu : w ≠ u)
    (hs : qStep c.qs (.call w op) = some q) : WakeK t u { c with qs := q } := by
  obtain ⟨h1, h2, h3, h4⟩ := call_shape hs
  rcases hk with ⟨x, hx⟩ | hk
  · left
    refine ⟨x, ?_⟩
    dsimp only
    rw [h2, List.getElem?_set_ne hwu]
    exact hx
  · right
    intro hw
    dsimp only at hw ⊢
    rw [h2] at hw
    rcases get_set hw with ⟨_, hh⟩ | ⟨h0, hw'⟩
    · cases hh
    · rcases hk hw' with hq | ⟨v, p, hv, hp, hn⟩
      · exact Or.inl (h3.trans hq)
      · refine Or.inr ⟨v, p, hv, ?_, hn⟩
        rw [h2, List.getElem?_set_ne]
        · exact hp
        · rintro rfl; rw [h1] at hp; cases hp; cases hn

theorem wakeK_step (c c' : CState) (l : CLabel) (t u : Nat) (hi : CInv c) (hut : u ≠ t) (hu0 : u ≠ 0) (hk : WakeK t u c)
    (hl : stepOf t l = false) (h : cStep c l = some c') (hlu : ∀ i, l ≠ .send u i) (hlu' : l ≠ .dtorSend u) : WakeK t u c' := by
  cases l with
  | send w i =>
    simp only [cStep] at h
    split at h
    · cases h
    · rw [Option.map_eq_some_iff] at h
      obtain ⟨q, hs, rfl⟩ := h
      exact wakeK_call hk (by rintro rfl; exact hlu i rfl) hs
  | dtorSend w =>
    simp only [cStep] at h
    split at h
    · rw [Option.map_eq_some_iff] at h
      obtain ⟨q, hs, rfl⟩ := h
      exact wakeK_call hk (by rintro rfl; exact hlu' rfl) hs
    · cases h
  | enter =>
    simp only [cStep] at h
    split at h
    · rw [Option.map_eq_some_iff] at h
      obtain ⟨q, hs, rfl⟩ := h
      exact wakeK_call hk (Ne.symm hu0) hs
    · cases h
  | mem l =>
    simp only [stepOf, decide_eq_false_iff_not] at hl
    have key : (∀ t op, l ≠ .call t op) → ∀ q r, qStep c.qs l = some q → WakeK t u { c with qs := q, running := r } := by
      intro hnc q r hs
      have hm := qmove_of c.qs q l hnc hi.used hs
      unfold WakeK
      dsimp only
      cases hm with
      | quiet _ _ w p p' hp hquiet hpcs hqq htr hun hsp hth hnw =>
        have hwt : w ≠ t := by rw [← hth]; exact hl
        rw [hpcs, hqq]
        rcases hk with ⟨x, hx⟩ | hk
        · left
          refine ⟨x, ?_⟩
          by_cases hwu : w = u
          · subst hwu
            rw [get_set_self hp]
            rw [hp] at hx
            rcases hx with hx | hx
            · cases hx; cases hquiet; exact Or.inr rfl
            · cases hx; cases hquiet
          · rw [List.getElem?_set_ne hwu]; exact hx
        · right
          intro hw0
          rcases get_set hw0 with ⟨h0, hh⟩ | ⟨h0, hw'⟩
          · subst hh
            cases hquiet with
            | block hq => exact Or.inl hq
          · rcases hk hw' with hq | ⟨v, pv, hv, hpv, hn⟩
            · exact Or.inl hq
            · right
              by_cases hvw : v = w
              · subst hvw
                rw [hp] at hpv
                cases hpv
                cases hquiet with
                | toNotify x r => exact ⟨v, .notify, hv, get_set_self hp, rfl⟩
                | done => exact absurd hw' (hnw rfl 0)
                | lock op => cases hn
                | relock => cases hn
                | block hq => cases hn
                | wake => cases hn
              · exact ⟨v, pv, hv, by rw [List.getElem?_set_ne (Ne.symm hvw)]; exact hpv, hn⟩
      | push _ w x hp hpcs hqq htr =>
        right
        intro _
        right
        exact ⟨w, _, hl, by rw [hpcs]; exact get_set_self hp, rfl⟩
      | pop _ w x hp hpcs hqq htr =>
        have hw0 := (hi.wait w _ hp rfl).1
        subst hw0
        right
        intro hh
        rw [hpcs, get_set_self hp] at hh
        cases hh
      | ret _ w x hp hpcs hqq htr =>
        have hw0 := (hi.wait w _ hp rfl).1
        subst hw0
        right
        intro hh
        rw [hpcs, get_set_self hp] at hh
        cases hh
      | notify _ w v hp hw hpcs hqq htr =>
        have hv0 := (hi.wait v _ hw rfl).1
        subst hv0
        have hwv : (0 : Nat) ≠ w := by rintro rfl; rw [hp] at hw; cases hw
        have hw' : (c.qs.pcs.set w .idle)[(0 : Nat)]? = some .waiting := by rw [List.getElem?_set_ne (Ne.symm hwv)]; exact hw
        right
        intro hh
        rw [hpcs, get_set_self hw'] at hh
        cases hh
    cases l with
    | call t op => simp only [cStep] at h; cases h
    | _ =>
      simp only [cStep] at h
      split at h
      · cases h
      · rw [Option.map_eq_some_iff] at h
        obtain ⟨q, hs, rfl⟩ := h
        exact key (by intro t op hh; cases hh) q _ hs
  | _ =>
    simp only [cStep] at h
    repeat' (split at h)
    all_goals first
      | (cases h; done)
      | (cases h; exact hk)

/-- A thread that makes no step and is not waiting stays where it is. -/
theorem stays (c c' : CState) (l : CLabel) (t : Nat) (p : QPc ATask) (hi : CInv c) (hp : c.qs.pcs[t]? = some p) (hw : p ≠ .waiting)
    (hl : stepOf t l = false) (h : cStep c l = some c') : c'.qs.pcs[t]? = some p := by
  have call : ∀ (u : Nat) op q, u ≠ t → qStep c.qs (.call u op) = some q → q.pcs[t]? = some p := by
    intro u op q hu hs
    rw [(call_shape hs).2.1, List.getElem?_set_ne hu]; exact hp
  cases l with
  | send u i =>
    simp only [stepOf, decide_eq_false_iff_not] at hl
    simp only [cStep] at h
    split at h
    · cases h
    · rw [Option.map_eq_some_iff] at h
      obtain ⟨q, hs, rfl⟩ := h
      exact call u _ q hl hs
  | dtorSend u =>
    simp only [stepOf, decide_eq_false_iff_not] at hl
    simp only [cStep] at h
    split at h
    · rw [Option.map_eq_some_iff] at h
      obtain ⟨q, hs, rfl⟩ := h
      exact call u _ q hl hs
    · cases h
  | enter =>
    simp only [stepOf, decide_eq_false_iff_not] at hl
    simp only [cStep] at h
    split at h
    · rw [Option.map_eq_some_iff] at h
      obtain ⟨q, hs, rfl⟩ := h
      exact call 0 _ q (Ne.symm hl) hs
    · cases h
  | mem l =>
    simp only [stepOf, decide_eq_false_iff_not] at hl
    have key : (∀ t op, l ≠ .call t op) → ∀ q, qStep c.qs l = some q → q.pcs[t]? = some p := by
      intro hnc q hs
      have hm := qmove_of c.qs q l hnc hi.used hs
      cases hm with
      | quiet _ _ u r r' hu hquiet hpcs hqq htr hun hsp hth hnw =>
        have hut : u ≠ t := by rw [← hth]; exact hl
        rw [hpcs, List.getElem?_set_ne hut]; exact hp
      | push _ u x hu hpcs hqq htr => rw [hpcs, List.getElem?_set_ne (show u ≠ t from hl)]; exact hp
      | pop _ u x hu hpcs hqq htr => rw [hpcs, List.getElem?_set_ne (show u ≠ t from hl)]; exact hp
      | ret _ u r hu hpcs hqq htr => rw [hpcs, List.getElem?_set_ne (show u ≠ t from hl)]; exact hp
      | notify _ u v hu hw' hpcs hqq htr =>
        have hvt : v ≠ t := by rintro rfl; rw [hp] at hw'; cases hw'; exact hw rfl
        rw [hpcs, List.getElem?_set_ne hvt, List.getElem?_set_ne (show u ≠ t from hl)]; exact hp
    cases l with
    | call t op => simp only [cStep] at h; cases h
    | _ =>
      simp only [cStep] at h
      split at h
      · cases h
      · rw [Option.map_eq_some_iff] at h
        obtain ⟨q, hs, rfl⟩ := h
        exact key (by intro t op hh; cases hh) q hs
  | _ =>
    simp only [cStep] at h
    repeat' (split at h)
    all_goals first
      | (cases h; done)
      | (cases h; exact hp)

/-- C69, the part that holds: if the interrupted thread `t` (not the worker thread) does not own the mutex at that moment, the fatal
message sent by the handler `u` gets through: in every schedule without steps of `t`, when nobody can make a step any more, `send`
has returned in the handler and everything in the queue, the fatal message included, has been processed, unless the worker is
being destroyed. (That such a state is reached after a bounded number of steps is `C68_bounded`.) -/
theorem C69_lock_free_partial (n : Nat) (ls ls' : List CLabel) (c c' : CState) (h : cRun (CState.start n) ls = some c)
    (t u i : Nat) (p : QPc ATask) (ht0 : t ≠ 0) (hu0 : u ≠ 0) (hut : u ≠ t) (hn : 0 < n)
    (hp : c.qs.pcs[t]? = some p) (hh : (∀ op, p ≠ .crit op) ∧ ∀ op r, p ≠ .fin op r) (hd : c.dtor = .notStarted)
    (hls : ∀ l ∈ ls', stepOf t l = false ∧ (∀ i, l ≠ .send u i) ∧ ∀ d, l ≠ .dtorSend d)
    (h' : cRun c (.send u i :: ls') = some c')
    (hstuck : ∀ l s, progress l = true → stepOf t l = false → cStep c' l ≠ some s) :
    c'.qs.pcs[u]? = some .idle ∧ c'.qs.q = [] ∧ .user i ∈ (pushedWith c'.qs.trace).map Prod.snd ∧
      (pushedWith c'.qs.trace).map Prod.snd = c'.ran.map .user := by
  -- what is known at the start
  obtain ⟨hi, _⟩ := C68_refines n ls c h
  have happ : ∀ (a b : List CLabel) (s s1 s2 : CState), cRun s a = some s1 → cRun s1 b = some s2 → cRun s (a ++ b) = some s2 := by
    intro a b
    induction a with
    | nil => intro s s1 s2 h1 h2; cases h1; exact h2
    | cons x a ih =>
      intro s s1 s2 h1 h2
      simp only [List.cons_append, cRun] at h1 ⊢
      cases hx : cStep s x with
      | none => rw [hx] at h1; cases h1
      | some w => rw [hx] at h1; exact ih w s1 s2 h1 h2
  have hfull := happ ls (.send u i :: ls') _ c c' h h'
  simp only [cRun] at h'
  cases hs1 : cStep c (.send u i) with
  | none => rw [hs1] at h'; cases h'
  | some c1 =>
  rw [hs1] at h'
  have hnw : p ≠ .waiting := by
    rintro rfl
    exact ht0 (hi.wait t _ hp rfl).1
  have hstep1 : stepOf t (.send u i) = false := by simp [stepOf, hut]
  have h1 : CInv c1 ∧ c1.qs.pcs[t]? = some p ∧ c1.dtor = .notStarted ∧ WakeK t u c1 := by
    refine ⟨cinv_step c c1 _ hi hs1, stays c c1 _ t p hi hp hnw hstep1 hs1, ?_, ?_⟩
    · simp only [cStep] at hs1
      split at hs1
      · cases hs1
      · rw [Option.map_eq_some_iff] at hs1
        obtain ⟨q, _, rfl⟩ := hs1
        exact hd
    · left
      simp only [cStep] at hs1
      split at hs1
      · cases hs1
      · rw [Option.map_eq_some_iff] at hs1
        obtain ⟨q, hq, rfl⟩ := hs1
        obtain ⟨h1, h2, h3, h4⟩ := call_shape hq
        exact ⟨_, Or.inl (by dsimp only; rw [h2]; exact get_set_self h1)⟩
  have hend : CInv c' ∧ c'.qs.pcs[t]? = some p ∧ c'.dtor = .notStarted ∧ WakeK t u c' := by
    have gen : ∀ (ls' : List CLabel) (s : CState), (∀ l ∈ ls', stepOf t l = false ∧ (∀ i, l ≠ .send u i) ∧ ∀ d, l ≠ .dtorSend d) →
        (CInv s ∧ s.qs.pcs[t]? = some p ∧ s.dtor = .notStarted ∧ WakeK t u s) → cRun s ls' = some c' →
        CInv c' ∧ c'.qs.pcs[t]? = some p ∧ c'.dtor = .notStarted ∧ WakeK t u c' := by
      intro ls'
      induction ls' with
      | nil => intro s _ hP hr; cases hr; exact hP
      | cons l ls' ih =>
        intro s hls hP hr
        simp only [cRun] at hr
        cases hs : cStep s l with
        | none => rw [hs] at hr; cases hr
        | some w =>
          rw [hs] at hr
          obtain ⟨a1, a2, a3, a4⟩ := hP
          obtain ⟨b1, b2, b3⟩ := hls l (by simp)
          refine ih w (fun x hx => hls x (List.mem_cons_of_mem _ hx)) ⟨cinv_step s w l a1 hs, stays s w l t p a1 a2 hnw b1 hs, ?_,
            wakeK_step s w l t u a1 hut hu0 a4 b1 hs b2 (b3 u)⟩ hr
          cases l with
          | dtorSend d => exact absurd rfl (b3 d)
          | join => simp [cStep, a3] at hs
          | mem l =>
            cases l with
            | call t op => simp only [cStep] at hs; cases hs
            | _ =>
              simp only [cStep] at hs
              split at hs
              · cases hs
              · rw [Option.map_eq_some_iff] at hs
                obtain ⟨q, _, rfl⟩ := hs
                exact a3
          | finish =>
            simp only [cStep] at hs
            repeat' (split at hs)
            all_goals first | (cases hs; done) | (cases hs; exact a3)
          | leave =>
            simp only [cStep] at hs
            repeat' (split at hs)
            all_goals first | (cases hs; done) | (cases hs; exact a3)
          | _ =>
            simp only [cStep] at hs
            split at hs
            all_goals first
              | (cases hs; done)
              | (rw [Option.map_eq_some_iff] at hs
                 obtain ⟨q, _, rfl⟩ := hs
                 exact a3)
    exact gen ls' c1 hls h1 h'
  obtain ⟨hi', hp', hd', hk'⟩ := hend
  have hj : c'.dtor ≠ .joined := by rw [hd']; simp
  obtain ⟨qls, hq⟩ := queue_reached n _ c' hfull
  have hqi : QInv c'.qs := inv_run n qls c'.qs hq
  have howner := owner_exists n qls c'.qs hq
  have hlen := pcs_length n qls c'.qs hq
  obtain ⟨_, als, ha⟩ := C68_refines n _ c' hfull
  have hA : AInv (absActive c') := arun_induct (fun s s' l hi hs => ainv_step s s' l hi hs) als _ _ ainv_start ha
  -- no step inside the queue by anybody but `t`
  have hno : ∀ l s, internal l = true → qThread l ≠ t → qStep c'.qs l ≠ some s := by
    intro l s hl hne hh
    refine hstuck (.mem l) _ hl (by simp [stepOf, hne]) (by rw [mem_step hj (by rintro t op rfl; cases hl), hh]; rfl)
  have hheld : ∀ (v : Nat) pv, v ≠ t → c'.qs.pcs[v]? = some pv → holds pv = false := by
    intro v pv hv hpv
    cases pv with
    | crit op =>
      exfalso
      cases hc : critical c'.qs.q op with
      | none => exact hno (.act v) _ rfl hv (by simp only [qStep]; rw [hpv]; simp only; rw [hc])
      | some r => exact hno (.act v) _ rfl hv (by simp only [qStep]; rw [hpv]; simp only; rw [hc])
    | fin op r =>
      exfalso
      cases op with
      | push x => exact hno (.unlock v) _ rfl hv (by simp only [qStep]; rw [hpv])
      | waitPop => exact hno (.unlock v) _ rfl hv (by simp only [qStep]; rw [hpv])
      | tryPop => exact hno (.unlock v) _ rfl hv (by simp only [qStep]; rw [hpv])
      | empty => exact hno (.unlock v) _ rfl hv (by simp only [qStep]; rw [hpv])
      | size => exact hno (.unlock v) _ rfl hv (by simp only [qStep]; rw [hpv])
    | _ => rfl
  have hfree : c'.qs.owner = none := by
    cases ho : c'.qs.owner with
    | none => rfl
    | some v =>
      exfalso
      obtain ⟨pv, hpv⟩ := howner v ho
      have hh1 := (hqi.lock v pv hpv).2 ho
      by_cases hv : v = t
      · subst hv
        rw [hp'] at hpv
        cases hpv
        cases p with
        | crit op => exact hh.1 op rfl
        | fin op r => exact hh.2 op r rfl
        | _ => cases hh1
      · rw [hheld v pv hv hpv] at hh1; cases hh1
  have hrest : ∀ (v : Nat) pv, v ≠ t → c'.qs.pcs[v]? = some pv → pv = .idle ∨ pv = .waiting := by
    intro v pv hv hpv
    cases pv with
    | idle => exact Or.inl rfl
    | waiting => exact Or.inr rfl
    | want op =>
      exfalso
      exact hno (.lock v) _ rfl hv (by simp only [qStep]; rw [hfree]; simp only; rw [hpv])
    | woken =>
      exfalso
      exact hno (.lock v) _ rfl hv (by simp only [qStep]; rw [hfree]; simp only; rw [hpv])
    | crit op => have := hheld v _ hv hpv; cases this
    | fin op r => have := hheld v _ hv hpv; cases this
    | notify =>
      exfalso
      by_cases hw : c'.qs.hasWaiter = true
      · unfold QState.hasWaiter at hw
        rw [List.any_eq_true] at hw
        obtain ⟨pw, hm, hpw⟩ := hw
        have hpw' : pw = .waiting := by cases pw <;> simp at hpw ⊢
        subst hpw'
        obtain ⟨w, hw'⟩ := List.mem_iff_getElem?.mp hm
        exact hno (.notify v (some w)) _ rfl hv (by simp only [qStep]; rw [hpv]; simp only; rw [hw'])
      · exact hno (.notify v none) _ rfl hv (by simp only [qStep]; rw [hpv]; simp only; rw [if_neg hw])
  have hulen : ∃ pu, c'.qs.pcs[u]? = some pu := by
    have hu1 : u < n := by
      simp only [cStep] at hs1
      split at hs1
      · cases hs1
      · rw [Option.map_eq_some_iff] at hs1
        obtain ⟨q, hq1, _⟩ := hs1
        obtain ⟨qls0, hq0⟩ := queue_reached n ls c h
        have := pcs_length n qls0 c.qs hq0
        have := (List.getElem?_eq_some_iff.mp (call_shape hq1).1).1
        omega
    exact ⟨c'.qs.pcs[u]'(by omega), List.getElem?_eq_getElem (by omega)⟩
  obtain ⟨pu, hpu⟩ := hulen
  have huidle : c'.qs.pcs[u]? = some .idle := by
    rcases hrest u pu hut hpu with rfl | rfl
    · exact hpu
    · exact absurd (hi'.wait u _ hpu rfl).1 hu0
  have hstop : ATask.stop ∉ pushed c'.qs.trace := hi'.before hd'
  obtain ⟨p0, hp0⟩ : ∃ p0, c'.qs.pcs[(0 : Nat)]? = some p0 := ⟨c'.qs.pcs[0]'(by omega), List.getElem?_eq_getElem (by omega)⟩
  have h0t : stepOf t .enter = false ∧ stepOf t .finish = false ∧ stepOf t .leave = false := by simp [stepOf, ht0]
  rcases hrest 0 p0 (Ne.symm ht0) hp0 with rfl | rfl
  · exfalso
    cases hr : c'.running with
    | some x =>
      cases x with
      | user i => exact hstuck .finish _ rfl h0t.2.1 (by simp only [cStep]; rw [hp0, hr])
      | stop => exact hstuck .finish _ rfl h0t.2.1 (by simp only [cStep]; rw [hp0, hr])
    | none =>
      cases he : c'.exited with
      | false =>
        cases hf : c'.flag with
        | false =>
          exact hstuck .enter _ rfl h0t.1 (by simp only [cStep]; rw [if_pos ⟨hf, he, hr⟩]; simp only [qStep]; rw [hp0]; rfl)
        | true => exact hstuck .leave _ rfl h0t.2.2 (by simp only [cStep]; rw [hp0]; simp only; rw [if_pos ⟨hf, he, hr⟩])
      | true =>
        obtain ⟨rest, hsent, _⟩ := hA.after (hi'.exit he)
        apply hstop
        have : (absActive c').sent = pushed c'.qs.trace := rfl
        rw [← this, hsent]; simp
  · obtain ⟨_, hf, he, hr⟩ := hi'.wait 0 _ hp0 rfl
    have hq0 : c'.qs.q = [] := by
      rcases hk' with ⟨x, hx⟩ | hk'
      · rw [huidle] at hx; rcases hx with hx | hx <;> cases hx
      · rcases hk' hp0 with hq0 | ⟨v, pv, hv, hpv, hn'⟩
        · exact hq0
        · rcases hrest v pv hv hpv with rfl | rfl <;> cases hn'
    have hhand : inHand c' = none := by unfold inHand; rw [hp0]; exact hr
    have hsent : pushed c'.qs.trace = c'.ran.map .user := by
      have := hA.parts hf
      simp only [absActive, hhand, hq0] at this
      simpa using this
    refine ⟨huidle, hq0, ?_, by rw [← pushed_eq]; exact hsent⟩
    have hord := C68_program_order n _ c' hfull u
    rw [huidle] at hord
    simp only [underway, List.append_nil] at hord
    have hmem : ATask.user i ∈ sendsOf u (ls ++ .send u i :: ls') := by
      have : ∀ a : List CLabel, ATask.user i ∈ sendsOf u (a ++ .send u i :: ls') := by
        intro a
        induction a with
        | nil => simp [sendsOf]
        | cons x a ih => rw [List.cons_append, sendsOf_cons]; exact List.mem_append_right _ ih
      exact this ls
    rw [hord] at hmem
    unfold byThread at hmem
    rw [List.mem_filterMap] at hmem
    obtain ⟨⟨v, x⟩, hm, hx⟩ := hmem
    split at hx
    · cases hx; exact List.mem_map.mpr ⟨_, hm, rfl⟩
    · cases hx

/-- The hypotheses can be met: thread 1 is interrupted between releasing the lock and `notify_one` while the worker waits; the message
of its handler (2) wakes the worker, which then runs both tasks. -/
example : ∃ c c', cRun (CState.start 3) [.enter, .mem (.lock 0), .mem (.act 0), .send 1 7, .mem (.lock 1), .mem (.act 1), .mem (.unlock 1)] = some c ∧
    c.qs.pcs[(1 : Nat)]? = some .notify ∧ c.qs.pcs[(0 : Nat)]? = some .waiting ∧
    cRun c [.send 2 99, .mem (.lock 2), .mem (.act 2), .mem (.unlock 2), .mem (.notify 2 (some 0)), .mem (.lock 0), .mem (.act 0), .mem (.unlock 0),
      .finish, .enter, .mem (.lock 0), .mem (.act 0), .mem (.unlock 0), .finish, .enter, .mem (.lock 0), .mem (.act 0)] = some c' ∧
    c'.ran = [7, 99] := ⟨_, _, rfl, rfl, rfl, rfl, rfl⟩

end G3.Props
