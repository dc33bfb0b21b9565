import Verif.Model.WorkerLocks
import Verif.Props.Queue
import Verif.Props.WorkerLive
/- Lemmas for C93: queues with one consumer, number 0, down to lock operations. -/
namespace G3.Props
open G3

section queue
variable {T : Type}

/-- Where the consumer can be. -/
def consPc : QPc T → Prop
  | .idle => True
  | .want op => op = .waitPop
  | .crit op => op = .waitPop
  | .fin op r => op = .waitPop ∧ ∃ x, r = .item x
  | .notify => False
  | .waiting => True
  | .woken => True

/-- Where the others can be. -/
def prodPc : QPc T → Prop
  | .idle => True
  | .want op => ∃ x, op = .push x
  | .crit op => ∃ x, op = .push x
  | .fin op _ => ∃ x, op = .push x
  | .notify => True
  | .waiting => False
  | .woken => False

/-- A queue with one consumer. -/
structure QOne (n : Nat) (s : QState T) : Prop where
  len : s.pcs.length = n
  cons : ∀ pc, s.pcs[(0 : Nat)]? = some pc → consPc pc
  prod : ∀ (t : Nat) pc, t ≠ 0 → s.pcs[t]? = some pc → prodPc pc
  lock : ∀ (t : Nat) pc, s.pcs[t]? = some pc → (holds pc = true ↔ s.owner = some t)
  lt : ∀ t, s.owner = some t → t < n
  wake : WakeInv s

/-- Calls that belong here. -/
def fitting : QLabel T → Prop
  | .call t op => (t = 0 ∧ op = .waitPop) ∨ (t ≠ 0 ∧ ∃ x, op = .push x)
  | _ => True

theorem qone_start (n : Nat) : QOne n (QState.start n : QState T) := by
  refine ⟨by simp [QState.start], ?_, ?_, ?_, ?_, ?_⟩
  · intro pc h; rw [start_get h]; trivial
  · intro t pc _ h; rw [start_get h]; trivial
  · intro t pc h; rw [start_get h]; simp [holds, QState.start]
  · intro t h; cases h
  · intro h
    obtain ⟨t, p, hp, hq⟩ := tot_pos _ _ h
    rw [start_get hp] at hq
    simp [blockedCount] at hq

/-- What happens at another place. -/
theorem qStep_len {s s' : QState T} {l : QLabel T} (h : qStep s l = some s') : s'.pcs.length = s.pcs.length := by
  cases l <;> simp only [qStep] at h <;> repeat' split at h
  all_goals first
    | cases h; done
    | (cases h; simp)

theorem qone_step {n : Nat} {s s' : QState T} {l : QLabel T} (hi : QOne n s) (hf : fitting l) (h : qStep s l = some s') : QOne n s' := by
  have hw := wake_step s s' l hi.wake h
  have hl := qStep_len h
  have hlt : ∀ {t : Nat} {pc : QPc T}, s.pcs[t]? = some pc → t < n := by
    intro t pc e
    rw [← hi.len]
    by_contra hc
    rw [List.getElem?_eq_none (by omega)] at e; cases e
  -- one place changes
  have one : ∀ {t : Nat} {p p' : QPc T} {o : Option Nat}, s.pcs[t]? = some p → s'.pcs = s.pcs.set t p' → s'.owner = o →
      (t = 0 → consPc p') → (t ≠ 0 → prodPc p') → (holds p' = true ↔ o = some t) → (∀ u, u ≠ t → (s.owner = some u ↔ o = some u)) → QOne n s' := by
    intro t p p' o hp he ho h1 h2 h3 h4
    refine ⟨by rw [hl, hi.len], ?_, ?_, ?_, ?_, hw⟩
    · intro pc e
      rw [he] at e
      rcases get_set e with ⟨e1, e2⟩ | ⟨_, e2⟩
      · rw [e2]; exact h1 e1.symm
      · exact hi.cons pc e2
    · intro u pc hu e
      rw [he] at e
      rcases get_set e with ⟨e1, e2⟩ | ⟨_, e2⟩
      · rw [e2]; exact h2 (by rw [← e1]; exact hu)
      · exact hi.prod u pc hu e2
    · intro u pc e
      rw [he] at e
      rw [ho]
      rcases get_set e with ⟨e1, e2⟩ | ⟨e1, e2⟩
      · rw [e2, e1]; exact h3
      · rw [hi.lock u pc e2]; exact h4 u e1
    · intro u e
      rw [ho] at e
      by_cases hu : u = t
      · rw [hu]; exact hlt hp
      · exact hi.lt u ((h4 u hu).2 e)
  cases l with
  | call t op =>
    simp only [qStep] at h
    split at h
    · next hp =>
      cases h
      refine one hp rfl rfl ?_ ?_ ?_ (fun _ _ => Iff.rfl)
      · intro e
        rcases hf with ⟨_, e'⟩ | ⟨e', _⟩
        · exact e'
        · exact absurd e e'
      · intro e
        rcases hf with ⟨e', _⟩ | ⟨_, e'⟩
        · exact absurd e' e
        · exact e'
      · rw [← hi.lock t _ hp]; simp [holds]
    · cases h
  | lock t =>
    simp only [qStep] at h
    split at h
    · cases h
    · next ho =>
      have hne : ∀ u, u ≠ t → (s.owner = some u ↔ some t = some u) := by
        intro u hu; rw [ho]; constructor
        · intro e; cases e
        · intro e; cases e; exact absurd rfl hu
      split at h
      · next op hp =>
        cases h
        refine one hp rfl rfl ?_ ?_ (by simp [holds]) hne
        · intro e; subst e; have := hi.cons _ hp; exact this
        · intro e; have := hi.prod t _ e hp; exact this
      · next hp =>
        cases h
        refine one hp rfl rfl (fun _ => rfl) ?_ (by simp [holds]) hne
        intro e; exact (hi.prod t _ e hp).elim
      · cases h
  | act t =>
    simp only [qStep] at h
    split at h
    · next op hp =>
      have hown := (hi.lock t _ hp).1 rfl
      split at h
      · next q' r hc =>
        cases h
        refine one hp rfl rfl ?_ ?_ (by simp [holds, hown]) (fun _ _ => Iff.rfl)
        · intro e; subst e
          have : op = .waitPop := hi.cons _ hp
          subst this
          refine ⟨rfl, ?_⟩
          simp only [critical] at hc
          split at hc
          · cases hc
          · cases hc; exact ⟨_, rfl⟩
        · intro e; have := hi.prod t _ e hp; exact this
      · next hc =>
        cases h
        refine one hp rfl rfl (fun _ => trivial) ?_ (by simp [holds]) ?_
        · intro e
          obtain ⟨x, hx⟩ := hi.prod t _ e hp
          subst hx
          simp [critical] at hc
        · intro u hu; rw [hown]; constructor
          · intro e; cases e; exact absurd rfl hu
          · intro e; cases e
    · cases h
  | unlock t =>
    have free : ∀ {p : QPc T}, s.pcs[t]? = some p → holds p = true → ∀ u, u ≠ t → (s.owner = some u ↔ (none : Option Nat) = some u) := by
      intro p hp hh u hu
      rw [(hi.lock t p hp).1 hh]; constructor
      · intro e; cases e; exact absurd rfl hu
      · intro e; cases e
    simp only [qStep] at h
    split at h
    · next hp =>
      cases h
      refine one hp rfl rfl ?_ (fun _ => trivial) (by simp [holds]) (free hp rfl)
      intro e; subst e
      exact absurd (hi.cons _ hp).1 (by simp)
    · next hp =>
      cases h
      exact one hp rfl rfl (fun _ => trivial) (fun _ => trivial) (by simp [holds]) (free hp rfl)
    · cases h
  | notify t u =>
    simp only [qStep] at h
    split at h
    · next hp =>
      have hno : s.owner ≠ some t := by
        intro e
        have := (hi.lock t _ hp).2 e
        simp [holds] at this
      have ht0 : t ≠ 0 := by
        intro e; subst e; exact hi.cons _ hp
      split at h
      · split at h
        · cases h
        · cases h
          refine one hp rfl rfl (fun _ => trivial) (fun _ => trivial) ?_ (fun _ _ => Iff.rfl)
          simp [holds, hno]
      · next u =>
        split at h
        · next hu =>
          cases h
          have hu0 : u = 0 := by
            by_contra hc
            exact hi.prod u _ hc hu
          subst hu0
          have hno0 : s.owner ≠ some 0 := by
            intro e
            have := (hi.lock 0 _ hu).2 e
            simp [holds] at this
          refine ⟨by simp [hi.len], ?_, ?_, ?_, hi.lt, hw⟩
          · intro pc e
            rcases get_set e with ⟨_, e2⟩ | ⟨e1, _⟩
            · rw [e2]; trivial
            · exact absurd rfl e1
          · intro v pc hv e
            rcases get_set e with ⟨e1, _⟩ | ⟨_, e2⟩
            · exact absurd e1 hv
            · rcases get_set e2 with ⟨_, e3⟩ | ⟨_, e3⟩
              · rw [e3]; trivial
              · exact hi.prod v pc hv e3
          · intro v pc e
            rcases get_set e with ⟨e1, e2⟩ | ⟨_, e2⟩
            · rw [e2, e1]; simp [holds, hno0]
            · rcases get_set e2 with ⟨e1, e3⟩ | ⟨_, e3⟩
              · rw [e3, e1]; simp [holds, hno]
              · exact hi.lock v pc e3
        · cases h
    · cases h
  | spurious t =>
    simp only [qStep] at h
    split at h
    · next hp =>
      cases h
      have hno : s.owner ≠ some t := by
        intro e
        have := (hi.lock t _ hp).2 e
        simp [holds] at this
      refine one hp rfl rfl (fun _ => trivial) ?_ (by simp [holds, hno]) (fun _ _ => Iff.rfl)
      intro e; exact (hi.prod t _ e hp).elim
    · cases h

/-- What has been taken out by a call that has not returned. -/
def gotPc : QPc T → List T
  | .fin .waitPop (.item x) => [x]
  | _ => []

/-- What the consumer has taken out but does not have yet. -/
def popd (s : QState T) : List T := match s.pcs[(0 : Nat)]? with | some p => gotPc p | none => []

/-- Final items that are about to enter the queue. -/
def earlyEnd (e : T → Bool) : QPc T → Nat
  | .want (.push x) => (e x).toNat
  | .crit (.push x) => (e x).toNat
  | _ => 0

/-- The queue if pop took place when it returns, and push of a final item when it is called. -/
def qView (e : T → Bool) (z : T) (s : QState T) : List T := popd s ++ s.q ++ List.replicate (tot (earlyEnd e) s.pcs) z

theorem popd_set_ne {s s' : QState T} {t : Nat} {p : QPc T} (ht : t ≠ 0) (h : s'.pcs = s.pcs.set t p) : popd s' = popd s := by
  unfold popd
  rw [h, List.getElem?_set_ne ht]

theorem popd_set_zero {s s' : QState T} {p p' : QPc T} (h0 : s.pcs[(0 : Nat)]? = some p) (h : s'.pcs = s.pcs.set 0 p') :
    popd s' = gotPc p' := by
  unfold popd
  have : 0 < s.pcs.length := by
    by_contra hc
    rw [List.getElem?_eq_none (by omega)] at h0; cases h0
  rw [h, List.getElem?_set_self this]

theorem popd_eq {s : QState T} {p : QPc T} (h0 : s.pcs[(0 : Nat)]? = some p) : popd s = gotPc p := by
  unfold popd
  rw [h0]

/-- `push` is called. -/
theorem view_call_push {e : T → Bool} {z : T} (he : ∀ x, e x = true → x = z) {s s' : QState T} {t : Nat} {x : T} (ht : t ≠ 0)
    (h : qStep s (.call t (.push x)) = some s') : qView e z s' = qView e z s ++ (if e x then [x] else []) := by
  simp only [qStep] at h
  split at h
  · next hp =>
    cases h
    have h1 := tot_set (earlyEnd e) s.pcs t _ (.want (.push x)) hp
    simp only [earlyEnd, Nat.add_zero] at h1
    unfold qView
    rw [popd_set_ne (s := s) ht rfl]
    show popd s ++ s.q ++ List.replicate (tot (earlyEnd e) (s.pcs.set t _)) z = _
    rw [h1]
    cases hx : e x
    · simp
    · rw [he x hx, Bool.toNat_true, List.replicate_succ']; simp
  · cases h

/-- `wait_and_pop` is called. -/
theorem view_call_pop {e : T → Bool} {z : T} {s s' : QState T} (h : qStep s (.call 0 .waitPop) = some s') : qView e z s' = qView e z s := by
  simp only [qStep] at h
  split at h
  · next hp =>
    cases h
    have h1 := tot_set (earlyEnd e) s.pcs 0 _ (.want .waitPop) hp
    simp only [earlyEnd, Nat.add_zero] at h1
    unfold qView
    rw [popd_set_zero (s := s) hp rfl, popd_eq hp]
    show [] ++ s.q ++ List.replicate (tot (earlyEnd e) (s.pcs.set 0 _)) z = [] ++ s.q ++ _
    rw [h1]
  · cases h

/-- An item enters. -/
theorem view_act_push {e : T → Bool} {z : T} (he : ∀ x, e x = true → x = z) {s s' : QState T} {t : Nat} {x : T} (ht : t ≠ 0)
    (hp : s.pcs[t]? = some (.crit (.push x))) (h : qStep s (.act t) = some s') :
    (e x = true → qView e z s' = qView e z s) ∧ (e x = false → tot (earlyEnd e) s.pcs = 0 → qView e z s' = qView e z s ++ [x]) := by
  simp only [qStep, hp, critical] at h
  cases h
  have h1 := tot_set (earlyEnd e) s.pcs t _ (.fin (.push x) .unit) hp
  simp only [earlyEnd] at h1
  unfold qView
  rw [popd_set_ne (s := s) ht rfl]
  constructor
  · intro hx
    show popd s ++ (s.q ++ [x]) ++ List.replicate (tot (earlyEnd e) (s.pcs.set t _)) z = _
    rw [hx, Nat.add_zero] at h1
    rw [← h1, he x hx, Bool.toNat_true, List.replicate_succ]
    simp
  · intro hx hz
    show popd s ++ (s.q ++ [x]) ++ List.replicate (tot (earlyEnd e) (s.pcs.set t _)) z = _
    rw [hx, hz] at h1
    rw [hz]
    have : tot (earlyEnd e) (s.pcs.set t (.fin (.push x) .unit)) = 0 := by simpa using h1
    rw [this]
    simp

/-- The consumer gets its item. -/
theorem view_unlock_pop {e : T → Bool} {z : T} {s s' : QState T} {x : T} (hp : s.pcs[(0 : Nat)]? = some (.fin .waitPop (.item x)))
    (h : qStep s (.unlock 0) = some s') : qView e z s = x :: qView e z s' := by
  simp only [qStep, hp] at h
  cases h
  have h1 := tot_set (earlyEnd e) s.pcs 0 _ .idle hp
  simp only [earlyEnd, Nat.add_zero] at h1
  have h2 : popd { s with owner := none, pcs := s.pcs.set 0 .idle, trace := s.trace ++ [.ret 0 (.item x)] } = [] := by
    rw [popd_set_zero (s := s) (p' := .idle) hp rfl]; rfl
  unfold qView
  rw [h2, popd_eq hp]
  show [x] ++ s.q ++ _ = x :: ([] ++ s.q ++ List.replicate (tot (earlyEnd e) (s.pcs.set 0 _)) z)
  rw [h1]
  simp

/-- Everything else changes nothing. -/
theorem view_other {e : T → Bool} {z : T} {n : Nat} {s s' : QState T} {l : QLabel T} (hi : QOne n s) (h : qStep s l = some s')
    (hc : ∀ t op, l ≠ .call t op) (ha : ∀ t x, l = .act t → s.pcs[t]? ≠ some (.crit (.push x)))
    (hu : ∀ t x, l = .unlock t → s.pcs[t]? ≠ some (.fin .waitPop (.item x))) : qView e z s' = qView e z s := by
  have one : ∀ {t : Nat} {p p' : QPc T}, s.pcs[t]? = some p → s'.pcs = s.pcs.set t p' → s'.q = s.q → earlyEnd e p' = earlyEnd e p →
      (t = 0 → gotPc p = gotPc p') →
      qView e z s' = qView e z s := by
    intro t p p' hp he hq hee h0
    have h1 := tot_set (earlyEnd e) s.pcs t _ p' hp
    rw [hee] at h1
    have h2 : tot (earlyEnd e) s'.pcs = tot (earlyEnd e) s.pcs := by rw [he]; omega
    have h3 : popd s' = popd s := by
      by_cases ht : t = 0
      · subst ht
        rw [popd_set_zero hp he, popd_eq hp, h0 rfl]
      · exact popd_set_ne ht he
    unfold qView
    rw [h2, h3, hq]
  cases l with
  | call t op => exact absurd rfl (hc t op)
  | lock t =>
    simp only [qStep] at h
    split at h
    · cases h
    · split at h
      · next op hp =>
        cases h
        refine one hp rfl rfl ?_ (fun _ => rfl)
        cases op <;> rfl
      · next hp => cases h; exact one hp rfl rfl rfl (fun _ => rfl)
      · cases h
  | act t =>
    have h' := h
    simp only [qStep] at h
    split at h
    · next op hp =>
      have h0 : t = 0 := by
        by_contra hc'
        obtain ⟨x, hx⟩ := hi.prod t _ hc' hp
        subst hx
        exact ha t x rfl hp
      subst h0
      have : op = .waitPop := hi.cons _ hp
      subst this
      cases hq : s.q with
      | nil =>
        rw [hq] at h
        simp only [critical] at h
        cases h
        refine one hp rfl hq.symm ?_ (fun _ => ?_)
        · rfl
        · rfl
      | cons x r =>
        rw [hq] at h
        simp only [critical] at h
        cases h
        have h1 := tot_set (earlyEnd e) s.pcs 0 _ (.fin .waitPop (.item x)) hp
        simp only [earlyEnd, Nat.add_zero] at h1
        unfold qView
        rw [popd_set_zero (s := s) hp rfl, popd_eq hp]
        show [x] ++ r ++ List.replicate (tot (earlyEnd e) (s.pcs.set 0 _)) z = [] ++ _ ++ _
        rw [h1, hq]
        simp
    · cases h
  | unlock t =>
    simp only [qStep] at h
    split at h
    · next hp =>
      cases h
      exact one hp rfl rfl rfl (fun _ => rfl)
    · next op r hne hp =>
      exfalso
      by_cases h0 : t = 0
      · subst h0
        obtain ⟨e1, x, e2⟩ := hi.cons _ hp
        subst e1; subst e2
        exact hu 0 x rfl hp
      · obtain ⟨x, hx⟩ := hi.prod t _ h0 hp
        subst hx
        exact hne x rfl
    · cases h
  | notify t u =>
    simp only [qStep] at h
    split at h
    · next hp =>
      have ht0 : t ≠ 0 := by intro e; subst e; exact hi.cons _ hp
      split at h
      · split at h
        · cases h
        · cases h; exact one hp rfl rfl rfl (fun e => absurd e ht0)
      · split at h
        · next _ u _ hu' =>
          cases h
          have hu0 : u = 0 := by
            by_contra hc
            exact hi.prod u _ hc hu'
          subst hu0
          have h1 := tot_set (earlyEnd e) s.pcs t _ .idle hp
          have hu2 : (s.pcs.set t .idle)[(0 : Nat)]? = some .waiting := by rw [List.getElem?_set_ne ht0]; exact hu'
          have h2 := tot_set (earlyEnd e) (s.pcs.set t .idle) 0 _ .woken hu2
          simp only [earlyEnd, Nat.add_zero] at h1 h2
          have h3 : popd { s with pcs := (s.pcs.set t .idle).set 0 .woken, trace := s.trace ++ [.ret t .unit] } = popd s := by
            rw [popd_set_zero (s := { s with pcs := s.pcs.set t .idle }) hu2 rfl, popd_eq hu']
            rfl
          unfold qView
          rw [h3]
          show popd s ++ s.q ++ List.replicate (tot (earlyEnd e) ((s.pcs.set t .idle).set 0 .woken)) z = _
          rw [h2, h1]
        · cases h
    · cases h
  | spurious t =>
    simp only [qStep] at h
    split at h
    · next hp => cases h; exact one hp rfl rfl rfl (fun _ => rfl)
    · cases h

/-- What a thread is about to push. -/
def earlyPc : QPc T → Option T
  | .want (.push x) => some x
  | .crit (.push x) => some x
  | _ => none

theorem early_pos {e : T → Bool} {l : List (QPc T)} (h : 0 < tot (earlyEnd e) l) : ∃ (t : Nat) (p : QPc T) (x : T), l[t]? = some p ∧ earlyPc p = some x ∧ e x = true := by
  obtain ⟨t, p, hp, hf⟩ := tot_pos _ _ h
  refine ⟨t, p, ?_⟩
  cases p with
  | want op => cases op with
    | push x => exact ⟨x, hp, rfl, by cases hx : e x <;> simp [earlyEnd, hx] at hf ⊢⟩
    | _ => simp [earlyEnd] at hf
  | crit op => cases op with
    | push x => exact ⟨x, hp, rfl, by cases hx : e x <;> simp [earlyEnd, hx] at hf ⊢⟩
    | _ => simp [earlyEnd] at hf
  | _ => simp [earlyEnd] at hf

/-- No step but a call makes a thread enter, or gives it something to push. -/
theorem frame_mem {s s' : QState T} {l : QLabel T} (h : qStep s l = some s') (hc : ∀ t op, l ≠ .call t op) (t : Nat) (p' : QPc T)
    (hp' : s'.pcs[t]? = some p') :
    ∃ p, s.pcs[t]? = some p ∧ (∀ x, earlyPc p' = some x → earlyPc p = some x) ∧ (p'.isIdle = false → p.isIdle = false) := by
  have one : ∀ {u : Nat} {p q : QPc T} {l : List (QPc T)}, l[u]? = some p → (l.set u q)[t]? = some p' → (∀ x, earlyPc q = some x → earlyPc p = some x) →
      (q.isIdle = false → p.isIdle = false) →
      ∃ p, l[t]? = some p ∧ (∀ x, earlyPc p' = some x → earlyPc p = some x) ∧ (p'.isIdle = false → p.isIdle = false) := by
    intro u p q l hp hs h1 h2
    rcases get_set hs with ⟨e1, e2⟩ | ⟨_, e2⟩
    · subst e1; subst e2; exact ⟨p, hp, h1, h2⟩
    · exact ⟨p', e2, fun _ h => h, fun h => h⟩
  cases l with
  | call t op => exact absurd rfl (hc t op)
  | lock u =>
    simp only [qStep] at h
    split at h
    · cases h
    · split at h
      · next op hp =>
        cases h
        refine one hp hp' ?_ (fun _ => rfl)
        cases op <;> exact fun _ h => h
      · next hp => cases h; exact one hp hp' (fun x hx => by cases hx) (fun _ => rfl)
      · cases h
  | act u =>
    simp only [qStep] at h
    split at h
    · next op hp =>
      split at h
      · cases h; exact one hp hp' (fun x hx => by cases hx) (fun _ => rfl)
      · cases h; exact one hp hp' (fun x hx => by cases hx) (fun _ => rfl)
    · cases h
  | unlock u =>
    simp only [qStep] at h
    split at h
    · next hp => cases h; exact one hp hp' (fun x hx => by cases hx) (fun _ => rfl)
    · next hp => cases h; exact one hp hp' (fun x hx => by cases hx) (fun hx => by cases hx)
    · cases h
  | notify u v =>
    simp only [qStep] at h
    split at h
    · next hp =>
      split at h
      · split at h
        · cases h
        · cases h; exact one hp hp' (fun x hx => by cases hx) (fun hx => by cases hx)
      · split at h
        · next _ v _ hv =>
          cases h
          have hne : v ≠ u := by intro e; subst e; rw [hp] at hv; cases hv
          have hv' : (s.pcs.set u .idle)[v]? = some .waiting := by rw [List.getElem?_set_ne (fun e => hne e.symm)]; exact hv
          obtain ⟨p1, e1, e2, e3⟩ := one hv' hp' (fun x hx => by cases hx) (fun _ => rfl)
          rcases get_set e1 with ⟨d1, d2⟩ | ⟨_, d2⟩
          · subst d1; subst d2
            exact ⟨QPc.notify, hp, ⟨fun x hx => (by have := e2 x hx; cases this), fun hx => (by have := e3 hx; cases this)⟩⟩
          · exact ⟨p1, d2, e2, e3⟩
        · cases h
    · cases h
  | spurious u =>
    simp only [qStep] at h
    split at h
    · next hp => cases h; exact one hp hp' (fun x hx => by cases hx) (fun _ => rfl)
    · cases h

/-- What is about to be pushed stays so until it is pushed. -/
theorem frame_keep {s s' : QState T} {l : QLabel T} (h : qStep s l = some s') {t : Nat} {p : QPc T} {x : T} (hp : s.pcs[t]? = some p) (he : earlyPc p = some x)
    (ha : l ≠ .act t) : ∃ p', s'.pcs[t]? = some p' ∧ earlyPc p' = some x := by
  have hlt : t < s.pcs.length := by
    by_contra hc
    rw [List.getElem?_eq_none (by omega)] at hp; cases hp
  have other : ∀ {u : Nat} {q q' : QPc T}, s.pcs[u]? = some q → earlyPc q = none → ∃ p', (s.pcs.set u q')[t]? = some p' ∧ earlyPc p' = some x := by
    intro u q q' hq hn
    have : u ≠ t := by intro e; subst e; rw [hp] at hq; cases hq; rw [hn] at he; cases he
    exact ⟨p, by rw [List.getElem?_set_ne this]; exact hp, he⟩
  cases l with
  | call u op =>
    simp only [qStep] at h
    split at h
    · next hu => cases h; exact other hu rfl
    · cases h
  | lock u =>
    simp only [qStep] at h
    split at h
    · cases h
    · split at h
      · next op hu =>
        cases h
        by_cases e : u = t
        · subst e
          rw [hp] at hu
          cases hu
          refine ⟨.crit op, by simp [List.getElem?_set_self hlt], ?_⟩
          cases op <;> exact he
        · exact ⟨p, by simp only [List.getElem?_set_ne e]; exact hp, he⟩
      · next hu => cases h; exact other hu rfl
      · cases h
  | act u =>
    have hu : u ≠ t := fun e => ha (by rw [e])
    simp only [qStep] at h
    split at h
    · split at h <;> · cases h; exact ⟨p, by simp only [List.getElem?_set_ne hu]; exact hp, he⟩
    · cases h
  | unlock u =>
    simp only [qStep] at h
    split at h
    · next hu => cases h; exact other hu rfl
    · next hu => cases h; exact other hu rfl
    · cases h
  | notify u v =>
    simp only [qStep] at h
    split at h
    · next hu =>
      split at h
      · split at h
        · cases h
        · cases h; exact other hu rfl
      · split at h
        · next _ v _ hv =>
          cases h
          have e1 : u ≠ t := by intro e; subst e; rw [hp] at hu; cases hu; cases he
          have e2 : v ≠ t := by intro e; subst e; rw [hp] at hv; cases hv; cases he
          exact ⟨p, by simp only [List.getElem?_set_ne e2, List.getElem?_set_ne e1]; exact hp, he⟩
        · cases h
    · cases h
  | spurious u =>
    simp only [qStep] at h
    split at h
    · next hu => cases h; exact other hu rfl
    · cases h

/-- After a call. -/
theorem frame_call {s s' : QState T} {u : Nat} {op : QOp T} (h : qStep s (.call u op) = some s') :
    s.pcs[u]? = some .idle ∧ s'.q = s.q ∧ s'.pcs = s.pcs.set u (.want op) := by
  simp only [qStep] at h
  split at h
  · next hp => cases h; exact ⟨hp, rfl, rfl⟩
  · cases h

/-- After an item has entered. -/
theorem frame_act {s s' : QState T} {u : Nat} {x : T} (hp : s.pcs[u]? = some (.crit (.push x))) (h : qStep s (.act u) = some s') :
    s'.q = s.q ++ [x] ∧ s'.pcs = s.pcs.set u (.fin (.push x) .unit) := by
  simp only [qStep, hp, critical] at h
  cases h
  exact ⟨rfl, rfl⟩

end queue
end G3.Props
