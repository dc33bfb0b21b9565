import Verif.Spec.Queue
import Mathlib.Data.List.Basic
/-
Properties of the message queue: C15, C16.
-/
namespace G3.Props
open G3 G3.Spec
variable {T : Type}

/-! ### C15 -/

/-- The phase of a thread, seen from its program counter. -/
def phaseOf : QPc T → Phase T
  | .idle => .out
  | .want op => .called op
  | .crit op => .called op
  | .fin op r => .done op r
  | .notify => .out
  | .waiting => .called .waitPop
  | .woken => .called .waitPop

/-- Matching of phase and program counter: a thread before `notify_one` has finished a push. -/
def matches' (tr : List (QEv T)) (t : Nat) : QPc T → Prop
  | .notify => ∃ x, WellFormed t tr (.done (.push x) .unit)
  | pc => WellFormed t tr (phaseOf pc)

/-- Does the thread own the mutex? -/
def holds : QPc T → Bool
  | .crit _ => true
  | .fin _ _ => true
  | _ => false

/-- The invariant. -/
structure QInv (s : QState T) : Prop where
  legal : Legal s.trace s.q
  match_ : ∀ t pc, s.pcs[t]? = some pc → matches' s.trace t pc
  lock : ∀ t pc, s.pcs[t]? = some pc → (holds pc = true ↔ s.owner = some t)
  pushRes : ∀ (t : Nat) x r, s.pcs[t]? = some (.fin (.push x) r) → r = .unit

theorem get_set {l : List (QPc T)} {t u : Nat} {p pc : QPc T} (h : (l.set t p)[u]? = some pc) :
    (u = t ∧ pc = p) ∨ (u ≠ t ∧ l[u]? = some pc) := by
  by_cases hu : u = t
  · subst hu
    left
    rw [List.getElem?_set] at h
    simp only [if_true] at h
    split at h
    · exact ⟨rfl, (Option.some.inj h).symm⟩
    · cases h
  · right
    rw [List.getElem?_set_ne (fun e => hu e.symm)] at h
    exact ⟨hu, h⟩

theorem other_ev {tr : List (QEv T)} {u : Nat} {pc : QPc T} (e : QEv T) (t : Nat) (hut : t ≠ u)
    (he : (∃ op, e = .call t op) ∨ (∃ op r, e = .lin t op r) ∨ ∃ r, e = .ret t r) (h : matches' tr u pc) :
    matches' (tr ++ [e]) u pc := by
  have key : ∀ p, WellFormed u tr p → WellFormed u (tr ++ [e]) p := by
    intro p hp
    rcases he with ⟨op, rfl⟩ | ⟨op, r, rfl⟩ | ⟨r, rfl⟩
    · exact .otherCall _ _ _ _ hut hp
    · exact .otherLin _ _ _ _ _ hut hp
    · exact .otherRet _ _ _ _ hut hp
  cases pc <;> first
    | exact key _ h
    | exact h.imp fun x hx => key _ hx

theorem critical_fifo {q q' : List T} {op : QOp T} {r : QRes T} (h : critical q op = some (q', r)) : Fifo q op r q' := by
  cases op with
  | push x => simp only [critical, Option.some.injEq, Prod.mk.injEq] at h; obtain ⟨rfl, rfl⟩ := h; exact .push _ _
  | tryPop =>
    cases q with
    | nil => simp only [critical, Option.some.injEq, Prod.mk.injEq] at h; obtain ⟨rfl, rfl⟩ := h; exact .tryFail
    | cons x q => simp only [critical, Option.some.injEq, Prod.mk.injEq] at h; obtain ⟨rfl, rfl⟩ := h; exact .tryPop _ _
  | waitPop =>
    cases q with
    | nil => cases h
    | cons x q => simp only [critical, Option.some.injEq, Prod.mk.injEq] at h; obtain ⟨rfl, rfl⟩ := h; exact .waitPop _ _
  | empty =>
    simp only [critical, Option.some.injEq, Prod.mk.injEq] at h; obtain ⟨rfl, rfl⟩ := h
    have : q.isEmpty = decide (q.length = 0) := by cases q <;> simp
    rw [this]; exact .empty _
  | size => simp only [critical, Option.some.injEq, Prod.mk.injEq] at h; obtain ⟨rfl, rfl⟩ := h; exact .size _

theorem inv_step (s s' : QState T) (l : QLabel T) (hi : QInv s) (h : qStep s l = some s') : QInv s' := by
  obtain ⟨i1, i2, i3, i4⟩ := hi
  cases l with
  | call t op =>
    simp only [qStep] at h
    split at h
    · next hp =>
      cases h
      refine ⟨.call _ _ _ _ i1, ?_, ?_, ?_⟩
      · intro u pc hu
        rcases get_set hu with ⟨rfl, rfl⟩ | ⟨hne, hu'⟩
        · exact .call _ _ (i2 u _ hp)
        · exact other_ev _ t (Ne.symm hne) (Or.inl ⟨op, rfl⟩) (i2 u pc hu')
      · intro u pc hu
        rcases get_set hu with ⟨rfl, rfl⟩ | ⟨hne, hu'⟩
        · have hx := i3 u _ hp; exact hx
        · exact i3 u pc hu'
      · intro u x r hu
        rcases get_set hu with ⟨rfl, h'⟩ | ⟨hne, hu'⟩
        · cases h'
        · exact i4 u x r hu'
    · cases h
  | lock t =>
    simp only [qStep] at h
    split at h
    · cases h
    · next ho =>
      have key : ∀ pc0 op, s.pcs[t]? = some pc0 → phaseOf pc0 = .called op → (∀ tr, matches' tr t pc0 → WellFormed t tr (.called op)) →
          QInv { s with owner := some t, pcs := s.pcs.set t (.crit op) } := by
        intro pc0 op hp _ hm
        refine ⟨i1, ?_, ?_, ?_⟩
        · intro u pc hu
          rcases get_set hu with ⟨rfl, rfl⟩ | ⟨hne, hu'⟩
          · exact hm _ (i2 u _ hp)
          · exact i2 u pc hu'
        · intro u pc hu
          rcases get_set hu with ⟨rfl, rfl⟩ | ⟨hne, hu'⟩
          · simp [holds]
          · have := i3 u pc hu'
            rw [ho] at this
            constructor
            · intro hh; exact absurd (this.1 hh) (by simp)
            · intro hh; exact absurd (Option.some.inj hh) (Ne.symm hne)
        · intro u x r hu
          rcases get_set hu with ⟨rfl, h'⟩ | ⟨hne, hu'⟩
          · cases h'
          · exact i4 u x r hu'
      split at h
      · next op hp => cases h; exact key _ op hp rfl (fun tr hm => hm)
      · next hp => cases h; exact key _ .waitPop hp rfl (fun tr hm => hm)
      · cases h
  | act t =>
    simp only [qStep] at h
    split at h
    · next op hp =>
      split at h
      · next q' r hc =>
        cases h
        refine ⟨.lin _ _ _ _ _ _ i1 (critical_fifo hc), ?_, ?_, ?_⟩
        · intro u pc hu
          rcases get_set hu with ⟨rfl, rfl⟩ | ⟨hne, hu'⟩
          · exact .lin _ _ _ (i2 u _ hp)
          · exact other_ev _ t (Ne.symm hne) (Or.inr (Or.inl ⟨op, r, rfl⟩)) (i2 u pc hu')
        · intro u pc hu
          rcases get_set hu with ⟨rfl, rfl⟩ | ⟨hne, hu'⟩
          · have hx := i3 u _ hp; exact hx
          · exact i3 u pc hu'
        · intro u x r' hu
          rcases get_set hu with ⟨rfl, h'⟩ | ⟨hne, hu'⟩
          · cases h'
            simp only [critical, Option.some.injEq, Prod.mk.injEq] at hc
            exact hc.2.symm
          · exact i4 u x r' hu'
      · next hc =>
        have hop : op = .waitPop := by
          cases op <;> first
            | rfl
            | (simp only [critical] at hc; first | cases hc | (split at hc <;> cases hc))
        subst hop
        cases h
        have hown := (i3 t _ hp).1 rfl
        refine ⟨i1, ?_, ?_, ?_⟩
        · intro u pc hu
          rcases get_set hu with ⟨rfl, rfl⟩ | ⟨hne, hu'⟩
          · have hx := i2 u _ hp; exact hx
          · exact i2 u pc hu'
        · intro u pc hu
          rcases get_set hu with ⟨rfl, rfl⟩ | ⟨hne, hu'⟩
          · simp [holds]
          · have := i3 u pc hu'
            rw [hown] at this
            constructor
            · intro hh; exact absurd (Option.some.inj (this.1 hh)).symm hne
            · intro hh; cases hh
        · intro u x r hu
          rcases get_set hu with ⟨rfl, h'⟩ | ⟨hne, hu'⟩
          · cases h'
          · exact i4 u x r hu'
    · cases h
  | unlock t =>
    simp only [qStep] at h
    have lockpart : ∀ (pc0 p : QPc T), s.pcs[t]? = some pc0 → holds pc0 = true → holds p = false →
        ∀ u pc, (s.pcs.set t p)[u]? = some pc → (holds pc = true ↔ (none : Option Nat) = some u) := by
      intro pc0 p hp hh hf u pc hu
      have hown := (i3 t _ hp).1 hh
      rcases get_set hu with ⟨rfl, rfl⟩ | ⟨hne, hu'⟩
      · simp [hf]
      · have := i3 u pc hu'
        rw [hown] at this
        constructor
        · intro hx; exact absurd (Option.some.inj (this.1 hx)).symm hne
        · intro hx; cases hx
    split at h
    · next x r hp =>
      cases h
      refine ⟨i1, ?_, lockpart _ _ hp rfl rfl, ?_⟩
      · intro u pc hu
        rcases get_set hu with ⟨rfl, rfl⟩ | ⟨hne, hu'⟩
        · have := i4 u x r hp
          subst this
          exact ⟨x, i2 u _ hp⟩
        · exact i2 u pc hu'
      · intro u y r' hu
        rcases get_set hu with ⟨rfl, h'⟩ | ⟨hne, hu'⟩
        · cases h'
        · exact i4 u y r' hu'
    · next op r hnp hp =>
      cases h
      refine ⟨.ret _ _ _ _ i1, ?_, lockpart _ _ hp rfl rfl, ?_⟩
      · intro u pc hu
        rcases get_set hu with ⟨rfl, rfl⟩ | ⟨hne, hu'⟩
        · exact .ret _ _ _ (i2 u _ hp)
        · exact other_ev _ t (Ne.symm hne) (Or.inr (Or.inr ⟨r, rfl⟩)) (i2 u pc hu')
      · intro u y r' hu
        rcases get_set hu with ⟨rfl, h'⟩ | ⟨hne, hu'⟩
        · cases h'
        · exact i4 u y r' hu'
    · cases h
  | notify t target =>
    simp only [qStep] at h
    split at h
    · next hp =>
      obtain ⟨x, hx⟩ := i2 t _ hp
      have hret : ∀ u pc, (s.pcs.set t .idle)[u]? = some pc → matches' (s.trace ++ [.ret t .unit]) u pc := by
        intro u pc hu
        rcases get_set hu with ⟨rfl, rfl⟩ | ⟨hne, hu'⟩
        · exact .ret _ _ _ hx
        · exact other_ev _ t (Ne.symm hne) (Or.inr (Or.inr ⟨.unit, rfl⟩)) (i2 u pc hu')
      have hlock : ∀ u pc, (s.pcs.set t .idle)[u]? = some pc → (holds pc = true ↔ s.owner = some u) := by
        intro u pc hu
        rcases get_set hu with ⟨rfl, rfl⟩ | ⟨hne, hu'⟩
        · have hx := i3 u _ hp; exact hx
        · exact i3 u pc hu'
      have hpr : ∀ (u : Nat) y r, (s.pcs.set t .idle)[u]? = some (.fin (.push y) r) → r = .unit := by
        intro u y r hu
        rcases get_set hu with ⟨rfl, h'⟩ | ⟨hne, hu'⟩
        · cases h'
        · exact i4 u y r hu'
      split at h
      · split at h
        · cases h
        · cases h; exact ⟨.ret _ _ _ _ i1, hret, hlock, hpr⟩
      · next w =>
        split at h
        · next hw =>
          cases h
          have hwt : w ≠ t := by rintro rfl; rw [hp] at hw; cases hw
          have hw' : (s.pcs.set t .idle)[w]? = some .waiting := by rw [List.getElem?_set_ne (Ne.symm hwt)]; exact hw
          refine ⟨.ret _ _ _ _ i1, ?_, ?_, ?_⟩
          · intro u pc hu
            rcases get_set hu with ⟨rfl, rfl⟩ | ⟨hne, hu'⟩
            · have hx := hret u _ hw'; exact hx
            · exact hret u pc hu'
          · intro u pc hu
            rcases get_set hu with ⟨rfl, rfl⟩ | ⟨hne, hu'⟩
            · have hx := hlock u _ hw'; exact hx
            · exact hlock u pc hu'
          · intro u y r hu
            rcases get_set hu with ⟨rfl, h'⟩ | ⟨hne, hu'⟩
            · cases h'
            · exact hpr u y r hu'
        · cases h
    · cases h
  | spurious t =>
    simp only [qStep] at h
    split at h
    · next hp =>
      cases h
      refine ⟨i1, ?_, ?_, ?_⟩
      · intro u pc hu
        rcases get_set hu with ⟨rfl, rfl⟩ | ⟨hne, hu'⟩
        · have hx := i2 u _ hp; exact hx
        · exact i2 u pc hu'
      · intro u pc hu
        rcases get_set hu with ⟨rfl, rfl⟩ | ⟨hne, hu'⟩
        · have hx := i3 u _ hp; exact hx
        · exact i3 u pc hu'
      · intro u x r hu
        rcases get_set hu with ⟨rfl, h'⟩ | ⟨hne, hu'⟩
        · cases h'
        · exact i4 u x r hu'
    · cases h

theorem start_get {n t : Nat} {pc : QPc T} (h : (QState.start n : QState T).pcs[t]? = some pc) : pc = .idle := by
  have := List.mem_of_getElem? h
  exact (List.eq_of_mem_replicate this)

theorem inv_start (n : Nat) : QInv (QState.start n : QState T) := by
  refine ⟨.nil, ?_, ?_, ?_⟩
  · intro t pc h; rw [start_get h]; exact .nil
  · intro t pc h; rw [start_get h]; simp [holds, QState.start]
  · intro t x r h; cases start_get h

theorem run_induct {P : QState T → Prop} (hstep : ∀ s s' l, P s → qStep s l = some s' → P s') (ls : List (QLabel T)) :
    ∀ s s', P s → qRun s ls = some s' → P s' := by
  induction ls with
  | nil => intro s s' h hr; cases hr; exact h
  | cons l ls ih =>
    intro s s' h hr
    simp only [qRun] at hr
    cases hl : qStep s l with
    | none => rw [hl] at hr; cases hr
    | some u => rw [hl] at hr; exact ih u s' (hstep s u l h hl) hr

theorem inv_run (n : Nat) (ls : List (QLabel T)) (s : QState T) (h : qRun (QState.start n) ls = some s) : QInv s :=
  run_induct (fun s s' l hi hs => inv_step s s' l hi hs) ls _ s (inv_start n) h

/-- C15: in every schedule of any number of threads the operations take effect one at a time, in an order in which they form a
legal history of a plain FIFO queue, and each takes effect between the call and the return that delivers its result. -/
theorem C15_linearisable (n : Nat) (ls : List (QLabel T)) (s : QState T) (h : qRun (QState.start n) ls = some s) :
    Legal s.trace s.q ∧ ∀ t, t < n → ∃ p, WellFormed t s.trace p := by
  have hi := inv_run n ls s h
  refine ⟨hi.legal, fun t ht => ?_⟩
  have hlen : s.pcs.length = n := by
    have : ∀ (s s' : QState T) l, s.pcs.length = n → qStep s l = some s' → s'.pcs.length = n := by
      intro s s' l hs hstep
      cases l <;> simp only [qStep] at hstep <;> repeat' (split at hstep)
      all_goals first
        | cases hstep; done
        | (cases hstep; simpa using hs)
    exact run_induct this ls _ s (by simp [QState.start]) h
  have hget : s.pcs[t]? = some s.pcs[t] := List.getElem?_eq_getElem (by omega)
  have := hi.match_ t _ hget
  cases hp : s.pcs[t] <;> rw [hp] at this <;> first
    | exact ⟨_, this⟩
    | exact this.elim fun x hx => ⟨_, hx⟩

/-- C15: nothing lost, duplicated, invented or reordered: what was taken out followed by what is in the queue is what was put in. -/
theorem C15_fifo (n : Nat) (ls : List (QLabel T)) (s : QState T) (h : qRun (QState.start n) ls = some s) :
    popped s.trace ++ s.q = pushed s.trace := by
  have hp : ∀ a b : List (QEv T), pushed (a ++ b) = pushed a ++ pushed b := by
    intro a b
    induction a with
    | nil => rfl
    | cons e a ih =>
      cases e with
      | lin t op r => cases op <;> simp [pushed, ih]
      | call t op => simp [pushed, ih]
      | ret t r => simp [pushed, ih]
  have ho : ∀ a b : List (QEv T), popped (a ++ b) = popped a ++ popped b := by
    intro a b
    induction a with
    | nil => rfl
    | cons e a ih =>
      cases e with
      | lin t op r => cases op <;> cases r <;> simp [popped, ih]
      | call t op => simp [popped, ih]
      | ret t r => simp [popped, ih]
  have hl := (inv_run n ls s h).legal
  clear h
  generalize s.trace = tr at hl
  generalize s.q = q at hl
  induction hl with
  | nil => rfl
  | call tr q t op _ ih => rw [hp, ho]; simpa [pushed, popped] using ih
  | ret tr q t r _ ih => rw [hp, ho]; simpa [pushed, popped] using ih
  | lin tr q q' t op r _ hf ih =>
    rw [hp, ho]
    cases hf <;> simp [pushed, popped, ← ih]

/-- C15: the queue is only touched under the mutex, by one thread at a time. -/
theorem C15_exclusive (n : Nat) (ls : List (QLabel T)) (s : QState T) (h : qRun (QState.start n) ls = some s) (t u : Nat) (p p' : QPc T)
    (ht : s.pcs[t]? = some p) (hu : s.pcs[u]? = some p') (h1 : holds p = true) (h2 : holds p' = true) : t = u := by
  have hi := inv_run n ls s h
  have a := (hi.lock t p ht).1 h1
  have b := (hi.lock u p' hu).1 h2
  rw [a] at b
  exact Option.some.inj b

/-! ### C16 -/

/-- Sum over the threads. -/
def tot (f : QPc T → Nat) (l : List (QPc T)) : Nat := (l.map f).sum

theorem tot_set (f : QPc T → Nat) (l : List (QPc T)) (t : Nat) (p p' : QPc T) (h : l[t]? = some p) :
    tot f (l.set t p') + f p = tot f l + f p' := by
  induction l generalizing t with
  | nil => cases h
  | cons a l ih =>
    cases t with
    | zero => cases h; simp [tot]; omega
    | succ t =>
      have := ih t h
      simp only [tot, List.set_cons_succ, List.map_cons, List.sum_cons] at *
      omega

theorem tot_pos (f : QPc T → Nat) (l : List (QPc T)) (h : 0 < tot f l) : ∃ (t : Nat) (p : QPc T), l[t]? = some p ∧ 0 < f p := by
  induction l with
  | nil => simp [tot] at h
  | cons a l ih =>
    by_cases ha : 0 < f a
    · exact ⟨0, a, rfl, ha⟩
    · have : 0 < tot f l := by simp only [tot, List.map_cons, List.sum_cons] at *; omega
      obtain ⟨t, p, hp, hf⟩ := ih this
      exact ⟨t + 1, p, hp, hf⟩

theorem tot_ge (f : QPc T → Nat) (l : List (QPc T)) (t : Nat) (p : QPc T) (h : l[t]? = some p) : f p ≤ tot f l := by
  induction l generalizing t with
  | nil => cases h
  | cons a l ih =>
    cases t with
    | zero => cases h; simp [tot]
    | succ t =>
      have := ih t h
      simp only [tot, List.map_cons, List.sum_cons] at *
      omega

/-- Wake-ups under way: a push that has not notified yet, a waiter that has been woken or is looking at the queue. -/
def pending : QPc T → Nat
  | .fin (.push _) _ => 1
  | .notify => 1
  | .woken => 1
  | .crit .waitPop => 1
  | _ => 0

/-- Blocked threads. -/
def blockedCount : QPc T → Nat
  | .waiting => 1
  | _ => 0

/-- As long as somebody waits there are at least as many wake-ups under way as items. -/
def WakeInv (s : QState T) : Prop := 0 < tot blockedCount s.pcs → s.q.length ≤ tot pending s.pcs

theorem hasWaiter_iff (s : QState T) : s.hasWaiter = false → tot blockedCount s.pcs = 0 := by
  intro h
  by_contra hne
  obtain ⟨t, p, hp, hf⟩ := tot_pos blockedCount s.pcs (by omega)
  have hw : p = .waiting := by cases p <;> simp [blockedCount] at hf <;> rfl
  subst hw
  have : s.hasWaiter = true := by
    unfold QState.hasWaiter
    rw [List.any_eq_true]
    exact ⟨.waiting, List.mem_of_getElem? hp, rfl⟩
  rw [h] at this; cases this

theorem wake_step (s s' : QState T) (l : QLabel T) (hw : WakeInv s) (h : qStep s l = some s') : WakeInv s' := by
  unfold WakeInv at *
  cases l with
  | call t op =>
    simp only [qStep] at h
    split at h
    · next hp =>
      cases h
      have a := tot_set blockedCount s.pcs t _ (.want op) hp
      have b := tot_set pending s.pcs t _ (.want op) hp
      simp only [blockedCount, pending] at a b ⊢
      omega
    · cases h
  | lock t =>
    simp only [qStep] at h
    split at h
    · cases h
    · split at h
      · next op hp =>
        cases h
        have a := tot_set blockedCount s.pcs t _ (.crit op) hp
        have b := tot_set pending s.pcs t _ (.crit op) hp
        simp only [blockedCount] at a
        have : pending (.want op : QPc T) = 0 := rfl
        simp only
        omega
      · next hp =>
        cases h
        have a := tot_set blockedCount s.pcs t _ (.crit .waitPop) hp
        have b := tot_set pending s.pcs t _ (.crit .waitPop) hp
        simp only [blockedCount, pending] at a b ⊢
        omega
      · cases h
  | act t =>
    simp only [qStep] at h
    split at h
    · next op hp =>
      split at h
      · next q' r hc =>
        cases h
        have a := tot_set blockedCount s.pcs t _ (.fin op r) hp
        have b := tot_set pending s.pcs t _ (.fin op r) hp
        have hf := critical_fifo hc
        generalize s.q = q0 at hf hw
        cases hf <;> simp only [blockedCount, pending, List.length_append, List.length_cons, List.length_nil] at a b hw ⊢ <;> omega
      · next hc =>
        have hop : op = .waitPop ∧ s.q = [] := by
          cases op <;> simp only [critical] at hc <;> first
            | cases hc; done
            | (split at hc <;> first | cases hc; done | exact ⟨rfl, by assumption⟩)
        cases h
        intro _
        simp [hop.2]
    · cases h
  | unlock t =>
    simp only [qStep] at h
    split at h
    · next x r hp =>
      cases h
      have a := tot_set blockedCount s.pcs t _ .notify hp
      have b := tot_set pending s.pcs t _ .notify hp
      simp only [blockedCount, pending] at a b ⊢
      omega
    · next op r hnp hp =>
      cases h
      have a := tot_set blockedCount s.pcs t _ .idle hp
      have b := tot_set pending s.pcs t _ .idle hp
      have hz : pending (.fin op r) = 0 := by
        cases op with
        | push x => exact absurd rfl (hnp x)
        | _ => rfl
      rw [hz] at b
      simp only [blockedCount, pending] at a b ⊢
      omega
    · cases h
  | notify t target =>
    simp only [qStep] at h
    split at h
    · next hp =>
      have a := tot_set blockedCount s.pcs t _ .idle hp
      have b := tot_set pending s.pcs t _ .idle hp
      simp only [blockedCount, pending] at a b
      split at h
      · split at h
        · cases h
        · next hn =>
          cases h
          have := hasWaiter_iff s (by simpa using hn)
          simp only
          omega
      · next w =>
        split at h
        · next hw' =>
          cases h
          have hwt : w ≠ t := by rintro rfl; rw [hp] at hw'; cases hw'
          have hw'' : (s.pcs.set t .idle)[w]? = some .waiting := by rw [List.getElem?_set_ne (Ne.symm hwt)]; exact hw'
          have c := tot_set blockedCount (s.pcs.set t .idle) w _ .woken hw''
          have d := tot_set pending (s.pcs.set t .idle) w _ .woken hw''
          simp only [blockedCount, pending] at c d ⊢
          omega
        · cases h
    · cases h
  | spurious t =>
    simp only [qStep] at h
    split at h
    · next hp =>
      cases h
      have a := tot_set blockedCount s.pcs t _ .woken hp
      have b := tot_set pending s.pcs t _ .woken hp
      simp only [blockedCount, pending] at a b ⊢
      omega
    · cases h

/-- A thread inside an operation that is not blocked on the condition variable. -/
def busy : QPc T → Bool
  | .idle => false
  | .waiting => false
  | _ => true

/-- As long as some thread is busy, some thread can make a step of its own. -/
theorem busy_steps (s : QState T) (hi : QInv s) (t : Nat) (pc : QPc T) (hp : s.pcs[t]? = some pc) (hb : busy pc = true)
    (hown : ∀ u, s.owner = some u → ∃ p, s.pcs[u]? = some p) : ∃ l s', internal l = true ∧ qStep s l = some s' := by
  have held : ∀ (u : Nat) (p : QPc T), s.pcs[u]? = some p → holds p = true → ∃ l s', internal l = true ∧ qStep s l = some s' := by
    intro u p hu hh
    cases p with
    | crit op =>
      refine ⟨.act u, ?_⟩
      simp only [qStep, hu]
      cases hc : critical s.q op with
      | none => exact ⟨_, rfl, rfl⟩
      | some x => obtain ⟨q', r⟩ := x; exact ⟨_, rfl, rfl⟩
    | fin op r =>
      refine ⟨.unlock u, ?_⟩
      simp only [qStep, hu]
      cases op <;> exact ⟨_, rfl, rfl⟩
    | _ => simp [holds] at hh
  have viaLock : ∀ s1, (s.owner = none → qStep s (.lock t) = some s1) → ∃ l s', internal l = true ∧ qStep s l = some s' := by
    intro s1 hl
    cases ho : s.owner with
    | none => exact ⟨_, _, rfl, hl ho⟩
    | some u =>
      obtain ⟨p, hu⟩ := hown u ho
      exact held u p hu ((hi.lock u p hu).2 ho)
  cases pc with
  | idle => simp [busy] at hb
  | waiting => simp [busy] at hb
  | want op => exact viaLock { s with owner := some t, pcs := s.pcs.set t (.crit op) } (fun ho => by simp only [qStep, ho, hp])
  | woken => exact viaLock { s with owner := some t, pcs := s.pcs.set t (.crit .waitPop) } (fun ho => by simp only [qStep, ho, hp])
  | crit op => exact held t _ hp rfl
  | fin op r => exact held t _ hp rfl
  | notify =>
    cases hw : s.hasWaiter with
    | false =>
      refine ⟨.notify t none, { s with pcs := s.pcs.set t .idle, trace := s.trace ++ [.ret t .unit] }, rfl, ?_⟩
      simp only [qStep, hp, hw, Bool.false_eq_true, if_false]
    | true =>
      unfold QState.hasWaiter at hw
      rw [List.any_eq_true] at hw
      obtain ⟨p, hm, hpw⟩ := hw
      have hpw' : p = .waiting := by cases p <;> first | rfl | simp at hpw
      subst hpw'
      obtain ⟨u, hu⟩ := List.getElem?_of_mem hm
      refine ⟨.notify t (some u), { s with pcs := (s.pcs.set t .idle).set u .woken, trace := s.trace ++ [.ret t .unit] }, rfl, ?_⟩
      simp only [qStep, hp, hu]

theorem owner_exists (n : Nat) (ls : List (QLabel T)) (s : QState T) (h : qRun (QState.start n) ls = some s) :
    ∀ u, s.owner = some u → ∃ p, s.pcs[u]? = some p := by
  have key : ∀ (s s' : QState T) l, (∀ u : Nat, s.owner = some u → u < s.pcs.length) → qStep s l = some s' →
      (∀ u : Nat, s'.owner = some u → u < (s'.pcs : List (QPc T)).length) := by
    intro s s' l hs hstep
    cases l with
    | lock t =>
      simp only [qStep] at hstep
      split at hstep
      · cases hstep
      · split at hstep
        · next op hp => cases hstep; intro u hu; cases hu; simpa using (List.getElem?_eq_some_iff.1 hp).1
        · next hp => cases hstep; intro u hu; cases hu; simpa using (List.getElem?_eq_some_iff.1 hp).1
        · cases hstep
    | _ =>
      simp only [qStep] at hstep
      repeat' (split at hstep)
      all_goals first
        | (cases hstep; done)
        | (cases hstep; intro u hu; first | (cases hu; done) | simpa using hs u hu)
  intro u hu
  have := run_induct (P := fun s => ∀ u, s.owner = some u → u < s.pcs.length) key ls _ s (by intro u hu; cases hu) h u hu
  exact ⟨_, List.getElem?_eq_getElem this⟩

/-- C16: whenever no thread can make a step of its own (spurious wake-ups and new calls aside), every thread is either outside
or blocked in `wait_and_pop`, and if one is blocked the queue is empty: no wake-up is lost, no deadlock. -/
theorem C16_stuck (n : Nat) (ls : List (QLabel T)) (s : QState T) (h : qRun (QState.start n) ls = some s)
    (hs : ∀ l s', internal l = true → qStep s l ≠ some s') :
    (∀ (t : Nat) pc, s.pcs[t]? = some pc → pc = .idle ∨ pc = .waiting) ∧
    (∀ t : Nat, s.pcs[t]? = some .waiting → s.q = []) := by
  have hi := inv_run n ls s h
  have ho := owner_exists n ls s h
  have hw : WakeInv s := run_induct (fun s s' l hw hs => wake_step s s' l hw hs) ls _ s
    (by intro _; simp [QState.start]) h
  have nb : ∀ (t : Nat) pc, s.pcs[t]? = some pc → busy pc = false := by
    intro t pc hp
    cases hb : busy pc with
    | false => rfl
    | true =>
      obtain ⟨l, s', h1, h2⟩ := busy_steps s hi t pc hp hb ho
      exact absurd h2 (hs l s' h1)
  constructor
  · intro t pc hp
    have := nb t pc hp
    cases pc <;> first | exact Or.inl rfl | exact Or.inr rfl | (simp [busy] at this)
  · intro t hp
    by_contra hne
    have h1 : 0 < tot blockedCount s.pcs := tot_ge blockedCount s.pcs t _ hp
    have h2 := hw h1
    have h3 : 0 < s.q.length := List.length_pos_of_ne_nil hne
    obtain ⟨u, p, hu, hpos⟩ := tot_pos pending s.pcs (by omega)
    have := nb u p hu
    cases p <;> first | (simp [busy] at this; done) | (simp [pending] at hpos; done)

/-- Remaining work of a thread. -/
def cost : QPc T → Nat
  | .idle => 0
  | .fin (.push _) _ => 4
  | .fin _ _ => 1
  | .waiting => 2
  | .crit (.push _) => 5
  | .crit _ => 3
  | .woken => 4
  | .want (.push _) => 6
  | .want _ => 4
  | .notify => 3

/-- C16: without new calls and spurious wake-ups the threads reach such a state after finitely many steps, in every schedule:
the total remaining work goes down with each step. -/
theorem C16_progress (s s' : QState T) (l : QLabel T) (hl : internal l = true) (h : qStep s l = some s') :
    tot cost s'.pcs < tot cost s.pcs := by
  cases l with
  | call t op => simp [internal] at hl
  | spurious t => simp [internal] at hl
  | lock t =>
    simp only [qStep] at h
    split at h
    · cases h
    · split at h
      · next op hp =>
        cases h
        have a := tot_set cost s.pcs t _ (.crit op) hp
        cases op <;> simp only [cost] at a ⊢ <;> omega
      · next hp =>
        cases h
        have a := tot_set cost s.pcs t _ (.crit .waitPop) hp
        simp only [cost] at a ⊢
        omega
      · cases h
  | act t =>
    simp only [qStep] at h
    split at h
    · next op hp =>
      split at h
      · next q' r hc =>
        cases h
        have a := tot_set cost s.pcs t _ (.fin op r) hp
        cases op <;> simp only [cost] at a ⊢ <;> omega
      · next hc =>
        cases h
        have a := tot_set cost s.pcs t _ .waiting hp
        cases op <;> simp only [cost] at a ⊢ <;> omega
    · cases h
  | unlock t =>
    simp only [qStep] at h
    split at h
    · next x r hp =>
      cases h
      have a := tot_set cost s.pcs t _ .notify hp
      simp only [cost] at a ⊢
      omega
    · next op r hnp hp =>
      cases h
      have a := tot_set cost s.pcs t _ .idle hp
      cases op <;> simp only [cost] at a ⊢ <;> omega
    · cases h
  | notify t target =>
    simp only [qStep] at h
    split at h
    · next hp =>
      have a := tot_set cost s.pcs t _ .idle hp
      simp only [cost] at a
      split at h
      · split at h
        · cases h
        · cases h; simp only; omega
      · next w =>
        split at h
        · next hw' =>
          cases h
          have hwt : w ≠ t := by rintro rfl; rw [hp] at hw'; cases hw'
          have hw'' : (s.pcs.set t .idle)[w]? = some .waiting := by rw [List.getElem?_set_ne (Ne.symm hwt)]; exact hw'
          have c := tot_set cost (s.pcs.set t .idle) w _ .woken hw''
          simp only [cost] at c ⊢
          omega
        · cases h
    · cases h

/-- C16: hence there is a bound on the number of such steps. -/
theorem C16_bounded (ls : List (QLabel T)) : ∀ (s s' : QState T), (∀ l ∈ ls, internal l = true) → qRun s ls = some s' →
    ls.length + tot cost s'.pcs ≤ tot cost s.pcs := by
  induction ls with
  | nil => intro s s' _ h; cases h; simp
  | cons l ls ih =>
    intro s s' hl h
    simp only [qRun] at h
    cases hs : qStep s l with
    | none => rw [hs] at h; cases h
    | some u =>
      rw [hs] at h
      have h1 := C16_progress s u l (hl l (by simp)) hs
      have h2 := ih u s' (fun x hx => hl x (List.mem_cons_of_mem _ hx)) h
      rw [List.length_cons]
      omega

/-- A consumer waits, a producer pushes and wakes it, another consumer steals the item, the first goes back to waiting. -/
example : ∃ s, qRun (QState.start 3 : QState Nat) [.call 0 .waitPop, .lock 0, .act 0, .call 1 (.push 7), .lock 1, .act 1, .unlock 1,
      .call 2 .tryPop, .lock 2, .act 2, .notify 1 (some 0), .unlock 2, .lock 0, .act 0] = some s ∧ s.q = [] ∧
      s.pcs[0]? = some .waiting ∧ popped s.trace = [7] := ⟨_, rfl, rfl, rfl, rfl⟩

end G3.Props
