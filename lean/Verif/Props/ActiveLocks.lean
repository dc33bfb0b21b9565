import Verif.Model.ActiveLocks
import Verif.Props.Active
import Verif.Props.Queue
import Mathlib.Tactic.Tauto
/-
Properties of the active object down to single lock operations: C68.
-/
namespace G3.Props
open G3 G3.Spec

/-! ### The effect of a step inside the queue, case by case -/

/-- Specification: who put in what, in the order in which the pushes took effect. -/
def pushedWith : List (QEv ATask) → List (Nat × ATask)
  | [] => []
  | .lin t (.push x) _ :: r => (t, x) :: pushedWith r
  | _ :: r => pushedWith r

theorem pushedWith_append (a b : List (QEv ATask)) : pushedWith (a ++ b) = pushedWith a ++ pushedWith b := by
  induction a with
  | nil => rfl
  | cons e a ih =>
    cases e with
    | lin t op r => cases op <;> simp [pushedWith, ih]
    | _ => simp [pushedWith, ih]

theorem pushed_eq (a : List (QEv ATask)) : pushed a = (pushedWith a).map Prod.snd := by
  induction a with
  | nil => rfl
  | cons e a ih =>
    cases e with
    | lin t op r => cases op <;> simp [pushedWith, pushed, ih]
    | _ => simp [pushedWith, pushed, ih]

theorem pushed_same {a b : List (QEv ATask)} (h : pushedWith a = pushedWith b) : pushed a = pushed b := by
  rw [pushed_eq, pushed_eq, h]

/-- A change of the program counter of one thread that touches nothing else of interest. -/
inductive QuietMove (q : List ATask) : QPc ATask → QPc ATask → Prop
  | lock (op) : QuietMove q (.want op) (.crit op)
  | relock : QuietMove q .woken (.crit .waitPop)
  | block : q = [] → QuietMove q (.crit .waitPop) .waiting
  | toNotify (x r) : QuietMove q (.fin (.push x) r) .notify
  | wake : QuietMove q .waiting .woken
  | done : QuietMove q .notify .idle

/-- The thread that makes the step. -/
def qThread : QLabel ATask → Nat
  | .call t _ => t
  | .lock t => t
  | .act t => t
  | .unlock t => t
  | .notify t _ => t
  | .spurious t => t

/-- Steps inside the member functions `push` and `wait_and_pop`. -/
inductive QMove (s : QState ATask) : QLabel ATask → QState ATask → Prop
  | quiet (l s' t p p') : s.pcs[t]? = some p → QuietMove s.q p p' → s'.pcs = s.pcs.set t p' → s'.q = s.q →
      pushedWith s'.trace = pushedWith s.trace → (∀ u, l ≠ .unlock u ∨ ∃ x r, p = .fin (.push x) r) →
      (p = .waiting → ∃ u, l = .spurious u) → qThread l = t → (p = .notify → ∀ w : Nat, s.pcs[w]? ≠ some .waiting) → QMove s l s'
  | push (s' t x) : s.pcs[t]? = some (.crit (.push x)) → s'.pcs = s.pcs.set t (.fin (.push x) .unit) → s'.q = s.q ++ [x] →
      pushedWith s'.trace = pushedWith s.trace ++ [(t, x)] → QMove s (.act t) s'
  | pop (s' t x) : s.pcs[t]? = some (.crit .waitPop) → s'.pcs = s.pcs.set t (.fin .waitPop (.item x)) → s.q = x :: s'.q →
      pushedWith s'.trace = pushedWith s.trace → QMove s (.act t) s'
  | ret (s' t r) : s.pcs[t]? = some (.fin .waitPop r) → s'.pcs = s.pcs.set t .idle → s'.q = s.q →
      pushedWith s'.trace = pushedWith s.trace → QMove s (.unlock t) s'
  | notify (s' t u) : s.pcs[t]? = some .notify → s.pcs[u]? = some .waiting → s'.pcs = (s.pcs.set t .idle).set u .woken →
      s'.q = s.q → pushedWith s'.trace = pushedWith s.trace → QMove s (.notify t (some u)) s'

/-- The operations the active object uses. -/
def usedOp : QPc ATask → Bool
  | .want (.push _) => true | .want .waitPop => true | .want _ => false
  | .crit (.push _) => true | .crit .waitPop => true | .crit _ => false
  | .fin (.push _) _ => true | .fin .waitPop _ => true | .fin _ _ => false
  | _ => true

theorem qmove_of (s s' : QState ATask) (l : QLabel ATask) (hc : ∀ t op, l ≠ .call t op)
    (hu : ∀ (t : Nat) pc, s.pcs[t]? = some pc → usedOp pc = true) (h : qStep s l = some s') : QMove s l s' := by
  cases l with
  | call t op => exact absurd rfl (hc t op)
  | lock t =>
    simp only [qStep] at h
    split at h
    · cases h
    · split at h
      · next op hp => cases h; exact .quiet _ _ t _ _ hp (.lock op) rfl rfl rfl (fun u => Or.inl (by simp)) (fun hh => by cases hh) rfl (fun hh => by cases hh)
      · next hp => cases h; exact .quiet _ _ t _ _ hp .relock rfl rfl rfl (fun u => Or.inl (by simp)) (fun hh => by cases hh) rfl (fun hh => by cases hh)
      · cases h
  | act t =>
    simp only [qStep] at h
    split at h
    · next op hp =>
      have hop := hu t _ hp
      cases op with
      | push x =>
        simp only [critical] at h
        cases h
        exact .push _ t x hp rfl rfl (by simp [pushedWith_append, pushedWith])
      | waitPop =>
        cases hq : s.q with
        | nil =>
          rw [show critical s.q (.waitPop : QOp ATask) = none by rw [hq]; rfl] at h
          simp only at h
          cases h
          exact .quiet _ _ t _ _ hp (.block hq) rfl rfl rfl (fun u => Or.inl (by simp)) (fun hh => by cases hh) rfl (fun hh => by cases hh)
        | cons x r =>
          rw [hq] at h
          simp only [critical] at h
          cases h
          exact .pop _ t x hp rfl hq (by simp [pushedWith_append, pushedWith])
      | tryPop => simp [usedOp] at hop
      | empty => simp [usedOp] at hop
      | size => simp [usedOp] at hop
    · cases h
  | unlock t =>
    simp only [qStep] at h
    split at h
    · next x r hp => cases h; exact .quiet _ _ t _ _ hp (.toNotify x r) rfl rfl rfl (fun u => Or.inr ⟨x, r, rfl⟩) (fun hh => by cases hh) rfl (fun hh => by cases hh)
    · next op r hnp hp =>
      have hop := hu t _ hp
      cases h
      cases op with
      | push x => exact absurd rfl (hnp x)
      | waitPop => exact .ret _ t r hp rfl rfl (by simp [pushedWith_append, pushedWith])
      | tryPop => simp [usedOp] at hop
      | empty => simp [usedOp] at hop
      | size => simp [usedOp] at hop
    · cases h
  | notify t target =>
    simp only [qStep] at h
    split at h
    · next hp =>
      split at h
      · split at h
        · cases h
        · next hnw =>
          cases h
          refine .quiet _ _ t _ _ hp .done rfl rfl (by simp [pushedWith_append, pushedWith]) (fun u => Or.inl (by simp))
            (fun hh => by cases hh) rfl ?_
          intro _ w hw
          apply hnw
          unfold QState.hasWaiter
          rw [List.any_eq_true]
          exact ⟨.waiting, List.mem_of_getElem? hw, rfl⟩
      · next u =>
        split at h
        · next hw => cases h; exact .notify _ t u hp hw rfl rfl (by simp [pushedWith_append, pushedWith])
        · cases h
    · cases h
  | spurious t =>
    simp only [qStep] at h
    split at h
    · next hp => cases h; exact .quiet _ _ t _ _ hp .wake rfl rfl rfl (fun u => Or.inl (by simp)) (fun _ => ⟨t, rfl⟩) rfl (fun hh => by cases hh)
    · cases h

/-! ### The invariant -/

/-- Inside `wait_and_pop`. -/
def inWait : QPc ATask → Bool
  | .want .waitPop => true
  | .crit .waitPop => true
  | .fin .waitPop _ => true
  | .waiting => true
  | .woken => true
  | _ => false

/-- About to push the final task. -/
def willStop : QPc ATask → Bool
  | .want (.push .stop) => true
  | .crit (.push .stop) => true
  | _ => false

theorem crit_want (op : QOp ATask) : usedOp (.crit op) = usedOp (.want op) ∧ inWait (.crit op) = inWait (.want op) ∧
    willStop (.crit op) = willStop (.want op) := by
  cases op with
  | push x => cases x <;> exact ⟨rfl, rfl, rfl⟩
  | _ => exact ⟨rfl, rfl, rfl⟩

/-- The invariant. -/
structure CInv (c : CState) : Prop where
  used : ∀ (t : Nat) pc, c.qs.pcs[t]? = some pc → usedOp pc = true
  wait : ∀ (t : Nat) pc, c.qs.pcs[t]? = some pc → inWait pc = true → t = 0 ∧ c.flag = false ∧ c.exited = false ∧ c.running = none
  item : ∀ (t : Nat) r, c.qs.pcs[t]? = some (.fin .waitPop r) → ∃ x, r = .item x
  stopper : ∀ (t : Nat) pc, c.qs.pcs[t]? = some pc → willStop pc = true → c.dtor = .inside t
  before : c.dtor = .notStarted → ATask.stop ∉ pushed c.qs.trace
  inside : ∀ d, c.dtor = .inside d → d ≠ 0 ∧ ∃ pc, c.qs.pcs[d]? = some pc ∧ (willStop pc = true ↔ ATask.stop ∉ pushed c.qs.trace)
  after : c.dtor = .joined → ATask.stop ∈ pushed c.qs.trace ∧ c.exited = true
  exit : c.exited = true → c.flag = true

theorem cinv_start (n : Nat) : CInv (CState.start n) := by
  refine ⟨?_, ?_, ?_, ?_, ?_, ?_, ?_, ?_⟩
  · intro t pc h; rw [start_get h]; rfl
  · intro t pc h hw; rw [start_get h] at hw; cases hw
  · intro t r h; cases start_get h
  · intro t pc h hw; rw [start_get h] at hw; cases hw
  · intro _ h; simp [CState.start, QState.start, pushed] at h
  · intro d h; cases h
  · intro h; cases h
  · intro h; cases h

theorem get_set_self {l : List (QPc ATask)} {t : Nat} {p p' : QPc ATask} (h : l[t]? = some p) : (l.set t p')[t]? = some p' := by
  rw [List.getElem?_set_self]
  exact (List.getElem?_eq_some_iff.mp h).1

/-- A call does not disturb the other threads. -/
theorem call_shape {s s' : QState ATask} {t : Nat} {op : QOp ATask} (h : qStep s (.call t op) = some s') :
    s.pcs[t]? = some .idle ∧ s'.pcs = s.pcs.set t (.want op) ∧ s'.q = s.q ∧ pushedWith s'.trace = pushedWith s.trace := by
  simp only [qStep] at h
  split at h
  · next hp => cases h; exact ⟨hp, rfl, rfl, by simp [pushedWith_append, pushedWith]⟩
  · cases h

/-- A change of one program counter that fits keeps the invariant. -/
theorem cinv_set {c c' : CState} (hi : CInv c) {t : Nat} {p p' : QPc ATask} (hp : c.qs.pcs[t]? = some p)
    (hpcs : c'.qs.pcs = c.qs.pcs.set t p') (hflag : c'.flag = c.flag) (hex : c'.exited = c.exited) (hd : c'.dtor = c.dtor)
    (hrun : t = 0 ∨ c'.running = c.running) (hused : usedOp p' = true)
    (hw : inWait p' = true → t = 0 ∧ c'.flag = false ∧ c'.exited = false ∧ c'.running = none)
    (hitem : ∀ r, p' = .fin .waitPop r → ∃ x, r = .item x)
    (hS : willStop p' = true → c.dtor = .inside t)
    (hA : c.dtor = .inside t → (willStop p' = true ↔ ATask.stop ∉ pushed c'.qs.trace))
    (hB : c.dtor ≠ .inside t → (ATask.stop ∈ pushed c'.qs.trace ↔ ATask.stop ∈ pushed c.qs.trace)) : CInv c' := by
  obtain ⟨i1, i2, i3, i4, i5, i6, i7, i8⟩ := hi
  refine ⟨?_, ?_, ?_, ?_, ?_, ?_, ?_, by rw [hex, hflag]; exact i8⟩
  · intro u pc hu
    rw [hpcs] at hu
    rcases get_set hu with ⟨rfl, rfl⟩ | ⟨_, hu'⟩
    · exact hused
    · exact i1 u pc hu'
  · intro u pc hu hin
    rw [hpcs] at hu
    rcases get_set hu with ⟨rfl, rfl⟩ | ⟨hne, hu'⟩
    · exact hw hin
    · obtain ⟨h0, h1, h2, h3⟩ := i2 u pc hu' hin
      rcases hrun with rfl | hr
      · exact absurd h0 hne
      · rw [hflag, hex, hr]; exact ⟨h0, h1, h2, h3⟩
  · intro u r hu
    rw [hpcs] at hu
    rcases get_set hu with ⟨rfl, h'⟩ | ⟨_, hu'⟩
    · exact hitem r h'.symm
    · exact i3 u r hu'
  · intro u pc hu hs
    rw [hpcs] at hu
    rw [hd]
    rcases get_set hu with ⟨rfl, rfl⟩ | ⟨_, hu'⟩
    · exact hS hs
    · exact i4 u pc hu' hs
  · intro hn
    rw [hd] at hn
    rw [hB (by rw [hn]; intro hh; cases hh)]
    exact i5 hn
  · intro d hdd
    rw [hd] at hdd
    obtain ⟨h0, pc, h1, h2⟩ := i6 d hdd
    refine ⟨h0, ?_⟩
    by_cases hdt : d = t
    · subst hdt
      exact ⟨p', by rw [hpcs]; exact get_set_self hp, hA hdd⟩
    · refine ⟨pc, by rw [hpcs, List.getElem?_set_ne (Ne.symm hdt)]; exact h1, ?_⟩
      rw [h2, hB (by rw [hdd]; intro hh; cases hh; exact hdt rfl)]
  · intro hj
    rw [hd] at hj
    rw [hB (by rw [hj]; intro hh; cases hh), hex]
    exact i7 hj

theorem handedOver_eq {c : CState} {l : QLabel ATask} (h : l ≠ .unlock 0 ∨ ∃ x r, c.qs.pcs[(0 : Nat)]? = some (.fin (.push x) r)) :
    handedOver c l = c.running := by
  unfold handedOver
  split
  · rcases h with h | ⟨x, r, h⟩
    · exact absurd rfl h
    · rw [h]
  · rfl

theorem quiet_run {c : CState} {l : QLabel ATask} {q : QState ATask} {t : Nat} {p p' : QPc ATask} (hq : qStep c.qs l = some q)
    (hp : c.qs.pcs[t]? = some p) (hquiet : QuietMove c.qs.q p p') (hpcs : q.pcs = c.qs.pcs.set t p')
    (hun : ∀ u, l ≠ .unlock u ∨ ∃ x r, p = .fin (.push x) r) : handedOver c l = c.running := by
  by_cases hu : l = .unlock 0
  · subst hu
    rcases hun 0 with hx | ⟨x, r, hx⟩
    · exact absurd rfl hx
    · apply handedOver_eq
      right
      subst hx
      simp only [qStep] at hq
      cases hquiet
      -- the thread of the step is thread 0
      split at hq
      · next x' r' h' => exact ⟨x', r', h'⟩
      · next op r' hnp h' =>
        cases hq
        by_cases ht : t = 0
        · subst ht; exact ⟨_, _, hp⟩
        · have e1 : (c.qs.pcs.set 0 .idle)[t]? = some (QPc.fin (.push x) r) := by
            rw [List.getElem?_set_ne (fun hh => ht hh.symm)]; exact hp
          dsimp only at hpcs
          rw [hpcs, get_set_self hp] at e1
          cases e1
      · cases hq
  · exact handedOver_eq (Or.inl hu)

theorem cinv_step (c c' : CState) (l : CLabel) (hi : CInv c) (h : cStep c l = some c') : CInv c' := by
  have hi0 := hi
  obtain ⟨i1, i2, i3, i4, i5, i6, i7, i8⟩ := hi
  cases l with
  | send t i =>
    simp only [cStep] at h
    split at h
    · cases h
    · next hc =>
      rw [Option.map_eq_some_iff] at h
      obtain ⟨q, hq, rfl⟩ := h
      obtain ⟨h1, h2, h3, h4⟩ := call_shape hq
      have h4 := pushed_same h4
      refine cinv_set hi0 h1 h2 rfl rfl rfl (Or.inr rfl) rfl (fun hh => by cases hh) (fun r hh => by cases hh)
        (fun hh => by cases hh) (fun hh => absurd (Or.inr (Or.inl hh)) hc) (fun _ => by dsimp only; rw [h4])
  | dtorSend d =>
    simp only [cStep] at h
    split at h
    · next hc =>
      rw [Option.map_eq_some_iff] at h
      obtain ⟨q, hq, rfl⟩ := h
      obtain ⟨h1, h2, h3, h4⟩ := call_shape hq
      have h4 := pushed_same h4
      refine ⟨?_, ?_, ?_, ?_, ?_, ?_, ?_, i8⟩
      · intro u pc hu
        dsimp only at hu
        rw [h2] at hu
        rcases get_set hu with ⟨rfl, rfl⟩ | ⟨_, hu'⟩
        · rfl
        · exact i1 u pc hu'
      · intro u pc hu
        dsimp only at hu
        rw [h2] at hu
        rcases get_set hu with ⟨rfl, rfl⟩ | ⟨_, hu'⟩
        · intro hw; cases hw
        · exact i2 u pc hu'
      · intro u r hu
        dsimp only at hu
        rw [h2] at hu
        rcases get_set hu with ⟨rfl, h'⟩ | ⟨_, hu'⟩
        · cases h'
        · exact i3 u r hu'
      · intro u pc hu hs
        dsimp only at hu ⊢
        rw [h2] at hu
        rcases get_set hu with ⟨rfl, rfl⟩ | ⟨_, hu'⟩
        · rfl
        · have := i4 u pc hu' hs
          rw [hc.1] at this; cases this
      · intro hh; cases hh
      · intro d' hh
        cases hh
        refine ⟨hc.2, _, by dsimp only; rw [h2]; exact get_set_self h1, ?_⟩
        dsimp only
        rw [h4]
        simp only [willStop, true_iff]
        exact i5 hc.1
      · intro hh; cases hh
    · cases h
  | mem l =>
    have key : (∀ t op, l ≠ .call t op) → c.dtor ≠ .joined → ∀ q, qStep c.qs l = some q →
        CInv { c with qs := q, running := handedOver c l } := by
      intro hl hj q hq
      have hm := qmove_of c.qs q l hl i1 hq
      cases hm with
      | quiet _ _ t p p' hp hquiet hpcs hqq htr hun hsp hth hnw =>
        have htr := pushed_same htr
        have hrun : handedOver c l = c.running := quiet_run hq hp hquiet hpcs hun
        refine cinv_set hi0 hp hpcs rfl rfl rfl (Or.inr hrun) ?_ ?_ ?_ ?_ ?_ (fun _ => by dsimp only; rw [htr])
        · have := i1 t p hp
          cases hquiet <;> first | rfl | exact (crit_want _).1.trans this
        · intro hin
          dsimp only
          rw [hrun]
          apply i2 t p hp
          cases hquiet <;> first | rfl | (cases hin; done) | exact (crit_want _).2.1.symm.trans hin
        · intro r hr
          cases hquiet <;> cases hr
        · intro hs
          apply i4 t p hp
          cases hquiet <;> first | rfl | (cases hs; done) | exact (crit_want _).2.2.symm.trans hs
        · intro hd
          dsimp only
          rw [htr]
          obtain ⟨_, pc, h1, h2⟩ := i6 t hd
          rw [hp] at h1
          cases h1
          rw [← h2]
          cases hquiet <;> first | exact Iff.rfl | rw [(crit_want _).2.2] | simp [willStop]
      | push _ t x hp hpcs hqq htr =>
        have htr : pushed q.trace = pushed c.qs.trace ++ [x] := by rw [pushed_eq, pushed_eq, htr]; simp
        have hrun : handedOver c (.act t) = c.running := handedOver_eq (Or.inl (by simp))
        refine cinv_set hi0 hp hpcs rfl rfl rfl (Or.inr hrun) rfl (fun hh => by cases hh) (fun r hr => by cases hr)
          (fun hh => by cases hh) ?_ ?_
        · intro hd
          obtain ⟨_, pc, h1, h2⟩ := i6 t hd
          rw [hp] at h1
          cases h1
          dsimp only
          rw [htr]
          cases x with
          | stop => simp [willStop]
          | user i =>
            simp only [willStop, Bool.false_eq_true, false_iff, not_not] at h2
            simp [willStop, h2]
        · intro hd
          dsimp only
          rw [htr]
          cases x with
          | stop => exact absurd (i4 t _ hp rfl) hd
          | user i => simp
      | pop _ t x hp hpcs hqq htr =>
        have htr := pushed_same htr
        have hrun : handedOver c (.act t) = c.running := handedOver_eq (Or.inl (by simp))
        refine cinv_set hi0 hp hpcs rfl rfl rfl (Or.inr hrun) rfl ?_ (fun r hr => by cases hr; exact ⟨_, rfl⟩)
          (fun hh => by cases hh) ?_ (fun _ => by dsimp only; rw [htr])
        · intro _
          dsimp only
          rw [hrun]
          exact i2 t _ hp rfl
        · intro hd
          obtain ⟨h0, _⟩ := i6 t hd
          exact absurd (i2 t _ hp rfl).1 h0
      | ret _ t r hp hpcs hqq htr =>
        have htr := pushed_same htr
        have ht := (i2 t _ hp rfl).1
        refine cinv_set hi0 hp hpcs rfl rfl rfl (Or.inl ht) rfl (fun hh => by cases hh) (fun r hr => by cases hr)
          (fun hh => by cases hh) ?_ (fun _ => by dsimp only; rw [htr])
        intro hd
        obtain ⟨h0, _⟩ := i6 t hd
        exact absurd ht h0
      | notify _ t u hp hw hpcs hqq htr =>
        have htr := pushed_same htr
        have hrun : handedOver c (.notify t (some u)) = c.running := handedOver_eq (Or.inl (by simp))
        have htu : u ≠ t := by rintro rfl; rw [hp] at hw; cases hw
        -- in two halves
        have hmid : CInv { c with qs := { c.qs with pcs := c.qs.pcs.set t .idle } } := by
          refine cinv_set hi0 hp rfl rfl rfl rfl (Or.inr rfl) rfl (fun hh => by cases hh) (fun r hr => by cases hr)
            (fun hh => by cases hh) ?_ (fun _ => Iff.rfl)
          intro hd
          obtain ⟨_, pc, h1, h2⟩ := i6 t hd
          rw [hp] at h1
          cases h1
          exact h2
        have hw' : (c.qs.pcs.set t .idle)[u]? = some .waiting := by
          rw [List.getElem?_set_ne (Ne.symm htu)]; exact hw
        refine cinv_set hmid hw' hpcs rfl rfl rfl (Or.inr hrun) rfl ?_ (fun r hr => by cases hr)
          (fun hh => by cases hh) ?_ (fun _ => by dsimp only; rw [htr])
        · intro _
          dsimp only
          rw [hrun]
          exact i2 u _ hw rfl
        · intro hd
          obtain ⟨h0, _⟩ := i6 u hd
          exact absurd (i2 u _ hw rfl).1 h0
    cases l with
    | call t op => simp only [cStep] at h; cases h
    | _ =>
      simp only [cStep] at h
      split at h
      · cases h
      · next hj =>
        rw [Option.map_eq_some_iff] at h
        obtain ⟨q, hq, rfl⟩ := h
        exact key (by intro t op hh; cases hh) hj q hq
  | enter =>
    simp only [cStep] at h
    split at h
    · next hc =>
      rw [Option.map_eq_some_iff] at h
      obtain ⟨q, hq, rfl⟩ := h
      obtain ⟨h1, h2, h3, h4⟩ := call_shape hq
      have h4 := pushed_same h4
      refine cinv_set hi0 h1 h2 rfl rfl rfl (Or.inr rfl) rfl (fun _ => ⟨rfl, hc.1, hc.2.1, hc.2.2⟩) (fun r hh => by cases hh)
        (fun hh => by cases hh) (fun hh => absurd rfl (i6 0 hh).1) (fun _ => by dsimp only; rw [h4])
    · cases h
  | finish =>
    simp only [cStep] at h
    split at h
    · next hp =>
      have nw : ∀ (t : Nat) pc, c.qs.pcs[t]? = some pc → inWait pc = true → False := by
        intro t pc ht hin
        have h0 := (i2 t pc ht hin).1
        subst h0
        rw [hp] at ht
        cases ht
        cases hin
      split at h
      · cases h
        exact ⟨i1, fun t pc ht hin => (nw t pc ht hin).elim, i3, i4, i5, i6, i7, i8⟩
      · cases h
        exact ⟨i1, fun t pc ht hin => (nw t pc ht hin).elim, i3, i4, i5, i6, i7, fun _ => rfl⟩
      · cases h
    · cases h
  | leave =>
    simp only [cStep] at h
    split at h
    · next hp =>
      split at h
      · next hc =>
        cases h
        refine ⟨i1, fun t pc ht hin => ?_, i3, i4, i5, i6, fun hj => ⟨(i7 hj).1, rfl⟩, fun _ => hc.1⟩
        have := (i2 t pc ht hin).2.1
        rw [hc.1] at this; cases this
      · cases h
    · cases h
  | join =>
    simp only [cStep] at h
    split at h
    · next d hd =>
      split at h
      · next hp =>
        split at h
        · next he =>
          cases h
          obtain ⟨_, pc, h1, h2⟩ := i6 d hd
          rw [hp] at h1
          cases h1
          simp only [willStop, Bool.false_eq_true, false_iff, not_not] at h2
          refine ⟨i1, i2, i3, fun t pc ht hs => ?_, fun hh => (by cases hh), fun d hh => (by cases hh), fun _ => ⟨h2, he⟩, i8⟩
          have h3 := i4 t pc ht hs
          rw [hd] at h3
          cases h3
          rw [hp] at ht
          cases ht
          cases hs
        · cases h
      · cases h
    · cases h

/-! ### Refinement -/

/-- The task in the hands of the thread: taken from the queue, whether `wait_and_pop` has returned or not. -/
def inHand (c : CState) : Option ATask :=
  match c.qs.pcs[(0 : Nat)]? with
  | some (.fin .waitPop (.item x)) => some x
  | _ => c.running

/-- The state of `Verif.Model.Active` a state stands for. -/
def absActive (c : CState) : AState :=
  { q := c.qs.q, running := inHand c, flag := c.flag, exited := c.exited,
    dtor := if c.dtor = .joined then .joined else if ATask.stop ∈ pushed c.qs.trace then .sent else .notStarted,
    sent := pushed c.qs.trace, ran := c.ran }

theorem inHand_other {c c' : CState} {t : Nat} {p' : QPc ATask} (hpcs : c'.qs.pcs = c.qs.pcs.set t p')
    (hrun : c'.running = c.running) (h : t ≠ 0 ∨ ((∀ x, p' ≠ .fin .waitPop (.item x)) ∧ ∀ x, c.qs.pcs[t]? ≠ some (.fin .waitPop (.item x)))) :
    inHand c' = inHand c := by
  by_cases ht : t = 0
  · subst ht
    obtain ⟨h1, h2⟩ := h.resolve_left (by simp)
    have e1 : inHand c = c.running := by
      unfold inHand
      split
      · next x hx => exact absurd hx (h2 x)
      · rfl
    have e2 : inHand c' = c'.running := by
      unfold inHand
      split
      · next x hx =>
        rw [hpcs] at hx
        rcases get_set hx with ⟨_, hh⟩ | ⟨hne, _⟩
        · exact absurd hh.symm (h1 x)
        · exact absurd rfl hne
      · rfl
    rw [e1, e2, hrun]
  · unfold inHand
    rw [hpcs, List.getElem?_set_ne ht, hrun]

theorem abs_same {c c' : CState} (hq : c'.qs.q = c.qs.q) (ht : pushed c'.qs.trace = pushed c.qs.trace) (hr : inHand c' = inHand c)
    (hf : c'.flag = c.flag) (he : c'.exited = c.exited) (hd : (c'.dtor = .joined) = (c.dtor = .joined)) (hran : c'.ran = c.ran) :
    absActive c' = absActive c := by
  unfold absActive
  simp only [hq, ht, hr, hf, he, hran]
  congr 1
  simp only [hd]

/-- Every step at lock level is a step of `Verif.Model.Active`, or none. -/
theorem active_sim (c c' : CState) (l : CLabel) (hi : CInv c) (h : cStep c l = some c') :
    absActive c' = absActive c ∨ ∃ al, aStep (absActive c) al = some (absActive c') := by
  have hi0 := hi
  obtain ⟨i1, i2, i3, i4, i5, i6, i7, i8⟩ := hi
  cases l with
  | send t i =>
    left
    simp only [cStep] at h
    split at h
    · cases h
    · next hc =>
      rw [Option.map_eq_some_iff] at h
      obtain ⟨q, hq, rfl⟩ := h
      obtain ⟨h1, h2, h3, h4⟩ := call_shape hq
      have h4 := pushed_same h4
      exact abs_same h3 h4 (inHand_other h2 rfl (Or.inr ⟨by simp, by simp [h1]⟩)) rfl rfl rfl rfl
  | dtorSend d =>
    left
    simp only [cStep] at h
    split at h
    · next hc =>
      rw [Option.map_eq_some_iff] at h
      obtain ⟨q, hq, rfl⟩ := h
      obtain ⟨h1, h2, h3, h4⟩ := call_shape hq
      have h4 := pushed_same h4
      exact abs_same h3 h4 (inHand_other h2 rfl (Or.inl hc.2)) rfl rfl (by simp [hc.1]) rfl
    · cases h
  | mem l =>
    have key : (∀ t op, l ≠ .call t op) → c.dtor ≠ .joined → ∀ q, qStep c.qs l = some q →
        absActive { c with qs := q, running := handedOver c l } = absActive c ∨
        ∃ al, aStep (absActive c) al = some (absActive { c with qs := q, running := handedOver c l }) := by
      intro hl hj q hq
      have hm := qmove_of c.qs q l hl i1 hq
      cases hm with
      | quiet _ _ t p p' hp hquiet hpcs hqq htr hun hsp hth hnw =>
        have htr := pushed_same htr
        left
        have hrun : handedOver c l = c.running := quiet_run hq hp hquiet hpcs hun
        refine abs_same hqq htr (inHand_other hpcs hrun (Or.inr ⟨?_, ?_⟩)) rfl rfl rfl rfl
        · intro x hx; cases hquiet <;> cases hx
        · intro x hx; rw [hp] at hx; cases hx; cases hquiet
      | push _ t x hp hpcs hqq htr =>
        have htr : pushed q.trace = pushed c.qs.trace ++ [x] := by rw [pushed_eq, pushed_eq, htr]; simp
        right
        have hrun : handedOver c (.act t) = c.running := handedOver_eq (Or.inl (by simp))
        have hh := inHand_other (c' := { c with qs := q, running := handedOver c (.act t) }) hpcs hrun (Or.inr ⟨by simp, by simp [hp]⟩)
        cases x with
        | user i =>
          refine ⟨.send i, ?_⟩
          have hd : (absActive c).dtor ≠ .joined := by
            simp only [absActive, if_neg hj]; split <;> simp
          simp only [aStep]
          rw [if_neg hd]
          simp [absActive, hh, hqq, htr, hj]
        | stop =>
          have hd := i4 t _ hp rfl
          obtain ⟨_, pc, h1, h2⟩ := i6 t hd
          rw [hp] at h1
          cases h1
          have hns := h2.1 rfl
          refine ⟨.dtorSend, ?_⟩
          have hd' : (absActive c).dtor = .notStarted := by simp only [absActive, if_neg hj, if_neg hns]
          simp only [aStep]
          rw [if_pos hd']
          simp [absActive, hh, hqq, htr, hj]
      | pop _ t x hp hpcs hqq htr =>
        have htr := pushed_same htr
        right
        have hrun : handedOver c (.act t) = c.running := handedOver_eq (Or.inl (by simp))
        obtain ⟨rfl, hf, he, hr⟩ := i2 t _ hp rfl
        have h1 : inHand c = none := by unfold inHand; rw [hp]; exact hr
        have h2 : inHand { c with qs := q, running := handedOver c (.act 0) } = some x := by
          unfold inHand
          dsimp only
          rw [hpcs, get_set_self hp]
        refine ⟨.pop, ?_⟩
        simp only [aStep]
        rw [if_pos ⟨hf, he, h1⟩]
        simp only [absActive, hqq]
        simp [h2, htr]
      | ret _ t r hp hpcs hqq htr =>
        have htr := pushed_same htr
        left
        obtain ⟨rfl, hf, he, hr⟩ := i2 t _ hp rfl
        obtain ⟨x, rfl⟩ := i3 0 r hp
        refine abs_same hqq htr ?_ rfl rfl rfl rfl
        have h1 : inHand c = some x := by unfold inHand; rw [hp]
        rw [h1]
        unfold inHand
        dsimp only
        rw [hpcs, get_set_self hp]
        simp only
        simp [handedOver, hp]
      | notify _ t u hp hw hpcs hqq htr =>
        have htr := pushed_same htr
        left
        have hrun : handedOver c (.notify t (some u)) = c.running := handedOver_eq (Or.inl (by simp))
        have htu : u ≠ t := by rintro rfl; rw [hp] at hw; cases hw
        have hu0 := (i2 u _ hw rfl).1
        subst hu0
        refine abs_same hqq htr ?_ rfl rfl rfl rfl
        have h1 : inHand c = c.running := by unfold inHand; rw [hw]
        rw [h1]
        unfold inHand
        dsimp only
        have hw' : (c.qs.pcs.set t .idle)[(0 : Nat)]? = some .waiting := by
          rw [List.getElem?_set_ne (Ne.symm htu)]; exact hw
        rw [hpcs, get_set_self hw']
        exact hrun
    cases l with
    | call t op => simp only [cStep] at h; cases h
    | _ =>
      simp only [cStep] at h
      split at h
      · cases h
      · next hj =>
        rw [Option.map_eq_some_iff] at h
        obtain ⟨q, hq, rfl⟩ := h
        exact key (by intro t op hh; cases hh) hj q hq
  | enter =>
    left
    simp only [cStep] at h
    split at h
    · next hc =>
      rw [Option.map_eq_some_iff] at h
      obtain ⟨q, hq, rfl⟩ := h
      obtain ⟨h1, h2, h3, h4⟩ := call_shape hq
      have h4 := pushed_same h4
      exact abs_same h3 h4 (inHand_other h2 rfl (Or.inr ⟨by simp, by simp [h1]⟩)) rfl rfl rfl rfl
    · cases h
  | finish =>
    right
    simp only [cStep] at h
    split at h
    · next hp =>
      have h1 : inHand c = c.running := by unfold inHand; rw [hp]
      split at h
      · next i hr =>
        cases h
        refine ⟨.finish, ?_⟩
        have h2 : inHand { c with running := none, ran := c.ran ++ [i] } = none := by unfold inHand; simp only [hp]
        simp only [aStep, absActive, h1, hr, h2]
      · next hr =>
        cases h
        refine ⟨.finish, ?_⟩
        have h2 : inHand { c with running := none, flag := true } = none := by unfold inHand; simp only [hp]
        simp only [aStep, absActive, h1, hr, h2]
      · cases h
    · cases h
  | leave =>
    right
    simp only [cStep] at h
    split at h
    · next hp =>
      have h1 : inHand c = c.running := by unfold inHand; rw [hp]
      split at h
      · next hc =>
        cases h
        refine ⟨.leave, ?_⟩
        simp only [aStep]
        rw [if_pos ⟨hc.1, hc.2.1, h1.trans hc.2.2⟩]
        rfl
      · cases h
    · cases h
  | join =>
    right
    simp only [cStep] at h
    split at h
    · next d hd =>
      split at h
      · next hp =>
        split at h
        · next he =>
          cases h
          obtain ⟨_, pc, h1, h2⟩ := i6 d hd
          rw [hp] at h1
          cases h1
          simp only [willStop, Bool.false_eq_true, false_iff, not_not] at h2
          refine ⟨.join, ?_⟩
          have hd' : (absActive c).dtor = .sent := by simp [absActive, hd, h2]
          simp only [aStep]
          rw [if_pos ⟨hd', he⟩]
          simp [absActive, inHand]
        · cases h
      · cases h
    · cases h

theorem crun_induct {P : CState → Prop} (hstep : ∀ s s' l, P s → cStep s l = some s' → P s') (ls : List CLabel) :
    ∀ s s', P s → cRun s ls = some s' → P s' := by
  induction ls with
  | nil => intro s s' h hr; cases hr; exact h
  | cons l ls ih =>
    intro s s' h hr
    simp only [cRun] at hr
    cases hl : cStep s l with
    | none => rw [hl] at hr; cases hr
    | some u => rw [hl] at hr; exact ih u s' (hstep s u l h hl) hr

theorem arun_append (a b : List ALabel) (s : AState) : aRun s (a ++ b) = (aRun s a).bind (aRun · b) := by
  induction a generalizing s with
  | nil => rfl
  | cons l a ih =>
    simp only [List.cons_append, aRun]
    cases aStep s l with
    | none => rfl
    | some u => simp only [Option.bind_some]; exact ih u

/-- C68: the object built from locks and condition variables behaves as the one whose queue operations are single steps:
every schedule of any number of threads corresponds to a schedule of `Verif.Model.Active` with the same queue, the same
tasks sent, the same tasks run, the same flag and the same progress of the destructor. -/
theorem C68_refines (n : Nat) (ls : List CLabel) (c : CState) (h : cRun (CState.start n) ls = some c) :
    CInv c ∧ ∃ als, aRun AState.start als = some (absActive c) := by
  refine crun_induct (P := fun c => CInv c ∧ ∃ als, aRun AState.start als = some (absActive c)) ?_ ls _ c ⟨cinv_start n, [], ?_⟩ h
  · rintro s s' l ⟨hi, als, ha⟩ hs
    refine ⟨cinv_step s s' l hi hs, ?_⟩
    rcases active_sim s s' l hi hs with he | ⟨al, he⟩
    · exact ⟨als, by rw [he]; exact ha⟩
    · refine ⟨als ++ [al], ?_⟩
      rw [arun_append, ha]
      simp [aRun, he]
  · have : absActive (CState.start n) = AState.start := by
      unfold absActive
      have hh : inHand (CState.start n) = none := by
        unfold inHand
        split
        · next x hx => cases start_get hx
        · rfl
      rw [hh]
      rfl
    rw [this]
    rfl

/-! ### What the users see -/

/-- C68: in every schedule the tasks that have run are an initial part of those put in before the final task of the
destructor, in that order, each once; all of them when the destructor has returned. -/
theorem C68_runs (n : Nat) (ls : List CLabel) (c : CState) (h : cRun (CState.start n) ls = some c) :
    c.ran <+: beforeStop ((pushedWith c.qs.trace).map Prod.snd) ∧
    (c.dtor = .joined → c.ran = beforeStop ((pushedWith c.qs.trace).map Prod.snd)) := by
  obtain ⟨_, als, ha⟩ := C68_refines n ls c h
  obtain ⟨h1, h2⟩ := C17_exactly_those als _ ha
  obtain ⟨new, h3, h4⟩ := sent_labels als _ _ ha
  have h5 : beforeStop (pushed c.qs.trace) = sentBefore als := by
    have : (absActive c).sent = new := by simpa [AState.start] using h3
    rw [← h4 rfl, ← this]
    rfl
  rw [← pushed_eq, h5]
  exact ⟨h1, fun hj => h2 (by simp [absActive, hj])⟩

/-- Specification: what thread `t` sends, in its own order, as the schedule tells. -/
def sendsOf (t : Nat) : List CLabel → List ATask
  | [] => []
  | .send u i :: r => if u = t then .user i :: sendsOf t r else sendsOf t r
  | .dtorSend u :: r => if u = t then .stop :: sendsOf t r else sendsOf t r
  | _ :: r => sendsOf t r

/-- What a thread has sent that is not in the queue yet. -/
def underway : Option (QPc ATask) → List ATask
  | some (.want (.push x)) => [x]
  | some (.crit (.push x)) => [x]
  | _ => []

/-- The part of thread `t`. -/
def byThread (t : Nat) (l : List (Nat × ATask)) : List ATask := l.filterMap fun p => if p.1 = t then some p.2 else none

theorem order_set {c c' : CState} {t u : Nat} {p' : QPc ATask} {w : List ATask} {p : QPc ATask} (hp : c.qs.pcs[u]? = some p)
    (hpcs : c'.qs.pcs = c.qs.pcs.set u p')
    (hself : byThread u (pushedWith c'.qs.trace) ++ underway (some p') = byThread u (pushedWith c.qs.trace) ++ underway (some p) ++ w)
    (hother : t ≠ u → byThread t (pushedWith c'.qs.trace) = byThread t (pushedWith c.qs.trace)) :
    byThread t (pushedWith c'.qs.trace) ++ underway c'.qs.pcs[t]? =
      byThread t (pushedWith c.qs.trace) ++ underway c.qs.pcs[t]? ++ (if u = t then w else []) := by
  rw [hpcs]
  by_cases h : u = t
  · subst h
    rw [get_set_self hp, if_pos rfl, hp]
    exact hself
  · rw [List.getElem?_set_ne h, if_neg h, hother (Ne.symm h)]
    simp

theorem order_step (c c' : CState) (l : CLabel) (t : Nat) (hi : CInv c) (h : cStep c l = some c') :
    byThread t (pushedWith c'.qs.trace) ++ underway c'.qs.pcs[t]? =
      byThread t (pushedWith c.qs.trace) ++ underway c.qs.pcs[t]? ++ sendsOf t [l] := by
  cases l with
  | send u i =>
    simp only [cStep] at h
    split at h
    · cases h
    · rw [Option.map_eq_some_iff] at h
      obtain ⟨q, hq, rfl⟩ := h
      obtain ⟨h1, h2, h3, h4⟩ := call_shape hq
      exact order_set h1 h2 (by dsimp only; rw [h4]; simp [underway, sendsOf]) (fun _ => by dsimp only; rw [h4])
  | dtorSend u =>
    simp only [cStep] at h
    split at h
    · rw [Option.map_eq_some_iff] at h
      obtain ⟨q, hq, rfl⟩ := h
      obtain ⟨h1, h2, h3, h4⟩ := call_shape hq
      exact order_set h1 h2 (by dsimp only; rw [h4]; simp [underway, sendsOf]) (fun _ => by dsimp only; rw [h4])
    · cases h
  | enter =>
    simp only [cStep] at h
    split at h
    · rw [Option.map_eq_some_iff] at h
      obtain ⟨q, hq, rfl⟩ := h
      obtain ⟨h1, h2, h3, h4⟩ := call_shape hq
      have := order_set (t := t) (w := []) (c' := { c with qs := q }) h1 h2 (by dsimp only; rw [h4]; simp [underway])
        (fun _ => by dsimp only; rw [h4])
      simpa [sendsOf] using this
    · cases h
  | mem l =>
    have key : (∀ t op, l ≠ .call t op) → ∀ q, qStep c.qs l = some q →
        byThread t (pushedWith q.trace) ++ underway q.pcs[t]? = byThread t (pushedWith c.qs.trace) ++ underway c.qs.pcs[t]? := by
      intro hl q hq
      have hm := qmove_of c.qs q l hl hi.used hq
      have fin : ∀ (u : Nat) (p p' : QPc ATask), c.qs.pcs[u]? = some p → q.pcs = c.qs.pcs.set u p' →
          byThread u (pushedWith q.trace) ++ underway (some p') = byThread u (pushedWith c.qs.trace) ++ underway (some p) →
          (t ≠ u → byThread t (pushedWith q.trace) = byThread t (pushedWith c.qs.trace)) →
          byThread t (pushedWith q.trace) ++ underway q.pcs[t]? = byThread t (pushedWith c.qs.trace) ++ underway c.qs.pcs[t]? := by
        intro u p p' hp hpcs hs ho
        have := order_set (t := t) (w := []) (c' := { c with qs := q }) hp hpcs (by simpa using hs) ho
        simpa using this
      cases hm with
      | quiet _ _ u p p' hp hquiet hpcs hqq htr hun hsp hth hnw =>
        refine fin u p p' hp hpcs ?_ (fun _ => by rw [htr])
        rw [htr]
        congr 1
        cases hquiet with
        | lock op => cases op <;> rfl
        | _ => rfl
      | push _ u x hp hpcs hqq htr =>
        refine fin u _ _ hp hpcs ?_ (fun hne => ?_)
        · rw [htr]; simp [byThread, underway]
        · rw [htr]; simp [byThread, Ne.symm hne]
      | pop _ u x hp hpcs hqq htr => exact fin u _ _ hp hpcs (by rw [htr]; rfl) (fun _ => by rw [htr])
      | ret _ u r hp hpcs hqq htr => exact fin u _ _ hp hpcs (by rw [htr]; rfl) (fun _ => by rw [htr])
      | notify _ u v hp hw hpcs hqq htr =>
        have huv : v ≠ u := by rintro rfl; rw [hp] at hw; cases hw
        rw [htr]
        congr 1
        have hw' : (c.qs.pcs.set u .idle)[v]? = some .waiting := by rw [List.getElem?_set_ne (Ne.symm huv)]; exact hw
        rw [hpcs]
        by_cases h1 : t = v
        · subst h1; rw [get_set_self hw', hw]; rfl
        · rw [List.getElem?_set_ne (Ne.symm h1)]
          by_cases h2 : t = u
          · subst h2; rw [get_set_self hp, hp]; rfl
          · rw [List.getElem?_set_ne (Ne.symm h2)]
    cases l with
    | call t op => simp only [cStep] at h; cases h
    | _ =>
      simp only [cStep] at h
      split at h
      · cases h
      · rw [Option.map_eq_some_iff] at h
        obtain ⟨q, hq, rfl⟩ := h
        have := key (by intro t op hh; cases hh) q hq
        simpa [sendsOf] using this
  | _ =>
    simp only [cStep] at h
    repeat' (split at h)
    all_goals first
      | (cases h; done)
      | (cases h; simp [sendsOf])

theorem sendsOf_cons (t : Nat) (l : CLabel) (ls : List CLabel) : sendsOf t (l :: ls) = sendsOf t [l] ++ sendsOf t ls := by
  cases l with
  | send u i => by_cases h : u = t <;> simp [sendsOf, h]
  | dtorSend u => by_cases h : u = t <;> simp [sendsOf, h]
  | _ => simp [sendsOf]

/-- C68: the tasks of one thread enter the queue in the order in which that thread sends them, none is lost and none invented: what
is missing is at most the one whose `send` has not returned. -/
theorem C68_program_order (n : Nat) (ls : List CLabel) (c : CState) (h : cRun (CState.start n) ls = some c) (t : Nat) :
    sendsOf t ls = byThread t (pushedWith c.qs.trace) ++ underway c.qs.pcs[t]? := by
  have key : ∀ (ls : List CLabel) (s : CState), CInv s → cRun s ls = some c →
      byThread t (pushedWith c.qs.trace) ++ underway c.qs.pcs[t]? =
        byThread t (pushedWith s.qs.trace) ++ underway s.qs.pcs[t]? ++ sendsOf t ls := by
    intro ls
    induction ls with
    | nil => intro s _ hr; cases hr; simp [sendsOf]
    | cons l ls ih =>
      intro s hi hr
      simp only [cRun] at hr
      cases hl : cStep s l with
      | none => rw [hl] at hr; cases hr
      | some u =>
        rw [hl] at hr
        rw [ih u (cinv_step s u l hi hl) hr, order_step s u l t hi hl, sendsOf_cons t l ls]
        simp
  rw [key ls _ (cinv_start n) h]
  have : underway (CState.start n).qs.pcs[t]? = [] := by
    cases hp : (CState.start n).qs.pcs[t]? with
    | none => rfl
    | some pc => rw [start_get hp]; rfl
  rw [this]
  rfl

/-- C68: a task whose `send` has returned is in front of every task whose `send` is called later. -/
theorem C68_real_time (n : Nat) (ls ls' : List CLabel) (c c' : CState) (h : cRun (CState.start n) ls = some c)
    (h' : cRun c ls' = some c') (t : Nat) (hidle : c.qs.pcs[t]? = some .idle) :
    sendsOf t ls = byThread t (pushedWith c.qs.trace) ∧ ∃ later, pushedWith c'.qs.trace = pushedWith c.qs.trace ++ later := by
  constructor
  · rw [C68_program_order n ls c h t, hidle]; simp [underway]
  · have hi := (C68_refines n ls c h).1
    have := crun_induct (P := fun x => CInv x ∧ ∃ later, pushedWith x.qs.trace = pushedWith c.qs.trace ++ later) ?_ ls' c c'
      ⟨hi, [], by simp⟩ h'
    · exact this.2
    · rintro s s' l ⟨hi, later, hl⟩ hs
      refine ⟨cinv_step s s' l hi hs, ?_⟩
      have grow : ∃ x, pushedWith s'.qs.trace = pushedWith s.qs.trace ++ x := by
        cases l with
        | mem l =>
          have key : (∀ t op, l ≠ .call t op) → ∀ q, qStep s.qs l = some q → ∃ x, pushedWith q.trace = pushedWith s.qs.trace ++ x := by
            intro hl q hq
            have hm := qmove_of s.qs q l hl hi.used hq
            cases hm with
            | push _ u x hp hpcs hqq htr => exact ⟨_, htr⟩
            | quiet _ _ u p p' hp hquiet hpcs hqq htr hun hsp hth hnw => exact ⟨[], by simp [htr]⟩
            | pop _ u x hp hpcs hqq htr => exact ⟨[], by simp [htr]⟩
            | ret _ u r hp hpcs hqq htr => exact ⟨[], by simp [htr]⟩
            | notify _ u v hp hw hpcs hqq htr => exact ⟨[], by simp [htr]⟩
          cases l with
          | call t op => simp only [cStep] at hs; cases hs
          | _ =>
            simp only [cStep] at hs
            split at hs
            · cases hs
            · rw [Option.map_eq_some_iff] at hs
              obtain ⟨q, hq, rfl⟩ := hs
              exact key (by intro t op hh; cases hh) q hq
        | finish =>
          simp only [cStep] at hs
          repeat' (split at hs)
          all_goals first | (cases hs; done) | (cases hs; exact ⟨[], by simp⟩)
        | leave =>
          simp only [cStep] at hs
          repeat' (split at hs)
          all_goals first | (cases hs; done) | (cases hs; exact ⟨[], by simp⟩)
        | join =>
          simp only [cStep] at hs
          repeat' (split at hs)
          all_goals first | (cases hs; done) | (cases hs; exact ⟨[], by simp⟩)
        | _ =>
          simp only [cStep] at hs
          split at hs
          all_goals first
            | (cases hs; done)
            | (rw [Option.map_eq_some_iff] at hs
               obtain ⟨q, hq, rfl⟩ := hs
               exact ⟨[], by simp [(call_shape hq).2.2.2]⟩)
      obtain ⟨x, hx⟩ := grow
      exact ⟨later ++ x, by rw [hx, hl, List.append_assoc]⟩

/-! ### It never hangs -/

/-- Steps other than new calls and spurious wake-ups. -/
def progress : CLabel → Bool
  | .send _ _ => false
  | .dtorSend _ => false
  | .mem l => internal l
  | _ => true

/-- The queue inside is in a state of a queue used by `n` threads. -/
theorem queue_reached (n : Nat) (ls : List CLabel) (c : CState) (h : cRun (CState.start n) ls = some c) :
    ∃ qls, qRun (QState.start n) qls = some c.qs := by
  have happ : ∀ (a : List (QLabel ATask)) (l : QLabel ATask) (s s1 s2 : QState ATask), qRun s a = some s1 → qStep s1 l = some s2 →
      qRun s (a ++ [l]) = some s2 := by
    intro a
    induction a with
    | nil => intro l s s1 s2 h1 h2; cases h1; simp [qRun, h2]
    | cons x a ih =>
      intro l s s1 s2 h1 h2
      simp only [List.cons_append, qRun] at h1 ⊢
      cases hx : qStep s x with
      | none => rw [hx] at h1; cases h1
      | some u => rw [hx] at h1; exact ih l u s1 s2 h1 h2
  refine crun_induct (P := fun c => ∃ qls, qRun (QState.start n) qls = some c.qs) ?_ ls _ c ⟨[], rfl⟩ h
  rintro s s' l ⟨qls, hq⟩ hs
  cases l with
  | mem l =>
    cases l with
    | call t op => simp only [cStep] at hs; cases hs
    | _ =>
      simp only [cStep] at hs
      split at hs
      · cases hs
      · rw [Option.map_eq_some_iff] at hs
        obtain ⟨q, hq', rfl⟩ := hs
        exact ⟨_, happ _ _ _ _ _ hq hq'⟩
  | finish =>
    simp only [cStep] at hs
    repeat' (split at hs)
    all_goals first | (cases hs; done) | (cases hs; exact ⟨_, hq⟩)
  | leave =>
    simp only [cStep] at hs
    repeat' (split at hs)
    all_goals first | (cases hs; done) | (cases hs; exact ⟨_, hq⟩)
  | join =>
    simp only [cStep] at hs
    repeat' (split at hs)
    all_goals first | (cases hs; done) | (cases hs; exact ⟨_, hq⟩)
  | _ =>
    simp only [cStep] at hs
    split at hs
    all_goals first
      | (cases hs; done)
      | (rw [Option.map_eq_some_iff] at hs
         obtain ⟨q, hq', rfl⟩ := hs
         exact ⟨_, happ _ _ _ _ _ hq hq'⟩)

theorem pcs_length (n : Nat) (ls : List (QLabel ATask)) (s : QState ATask) (h : qRun (QState.start n) ls = some s) : s.pcs.length = n := by
  refine run_induct (P := fun s : QState ATask => s.pcs.length = n) ?_ ls _ s (by simp [QState.start]) h
  intro s s' l hs hstep
  cases l <;> simp only [qStep] at hstep <;> repeat' (split at hstep)
  all_goals first
    | (cases hstep; done)
    | (cases hstep; simpa using hs)

theorem mem_step {c : CState} {l : QLabel ATask} (hj : c.dtor ≠ .joined) (hl : ∀ t op, l ≠ .call t op) :
    cStep c (.mem l) = (qStep c.qs l).map fun q => { c with qs := q, running := handedOver c l } := by
  cases l with
  | call t op => exact absurd rfl (hl t op)
  | _ => simp only [cStep]; rw [if_neg hj]

/-- C68: a state without a possible step is either the end, the destructor having returned, or the object is at rest: nobody is
inside it, the queue is empty, the thread waits, and every task ever sent has been run. -/
theorem C68_stuck (n : Nat) (hn : 0 < n) (ls : List CLabel) (c : CState) (h : cRun (CState.start n) ls = some c)
    (hs : ∀ l c', progress l = true → cStep c l ≠ some c') :
    c.dtor = .joined ∨
    (c.dtor = .notStarted ∧ c.qs.q = [] ∧ c.qs.pcs[(0 : Nat)]? = some .waiting ∧
      (∀ (t : Nat) pc, t ≠ 0 → c.qs.pcs[t]? = some pc → pc = .idle) ∧
      (pushedWith c.qs.trace).map Prod.snd = c.ran.map .user) := by
  obtain ⟨hi, als, ha⟩ := C68_refines n ls c h
  have hA : AInv (absActive c) := arun_induct (fun s s' l hi hs => ainv_step s s' l hi hs) als _ _ ainv_start ha
  by_cases hj : c.dtor = .joined
  · exact Or.inl hj
  right
  obtain ⟨qls, hq⟩ := queue_reached n ls c h
  have hqs : ∀ l s', internal l = true → qStep c.qs l ≠ some s' := by
    intro l s' hl hh
    exact hs (.mem l) _ hl (by rw [mem_step hj (by rintro t op rfl; cases hl), hh]; rfl)
  obtain ⟨hall, hempty⟩ := C16_stuck n qls c.qs hq hqs
  have hlen := pcs_length n qls c.qs hq
  have h0 : ∃ pc, c.qs.pcs[(0 : Nat)]? = some pc := ⟨c.qs.pcs[0]'(by omega), List.getElem?_eq_getElem (by omega)⟩
  obtain ⟨pc, hpc⟩ := h0
  have hother : ∀ (t : Nat) pc, t ≠ 0 → c.qs.pcs[t]? = some pc → pc = .idle := by
    intro t pc ht hp
    rcases hall t pc hp with rfl | rfl
    · rfl
    · exact absurd (hi.wait t _ hp rfl).1 ht
  -- the final task is in the queue as soon as the destructor has been entered
  have hdt : ∀ d, c.dtor = .inside d → c.qs.pcs[d]? = some .idle ∧ ATask.stop ∈ pushed c.qs.trace := by
    intro d hd
    obtain ⟨hne, p, hp, hiff⟩ := hi.inside d hd
    have := hother d p hne hp
    subst this
    refine ⟨hp, ?_⟩
    by_contra hns
    cases hiff.2 hns
  rcases hall 0 pc hpc with rfl | rfl
  · -- the thread is not inside the queue: it can go on
    exfalso
    cases hr : c.running with
    | some x =>
      cases x with
      | user i => exact hs .finish _ rfl (by simp only [cStep]; rw [hpc, hr])
      | stop => exact hs .finish _ rfl (by simp only [cStep]; rw [hpc, hr])
    | none =>
      cases he : c.exited with
      | false =>
        cases hf : c.flag with
        | false =>
          refine hs .enter _ rfl (by simp only [cStep]; rw [if_pos ⟨hf, he, hr⟩]; simp only [qStep]; rw [hpc]; rfl)
        | true =>
          refine hs .leave _ rfl (by simp only [cStep]; rw [hpc]; simp only; rw [if_pos ⟨hf, he, hr⟩])
      | true =>
        have hf := hi.exit he
        obtain ⟨rest, hsent, _⟩ := hA.after (by exact hf)
        have hstop : ATask.stop ∈ pushed c.qs.trace := by
          have : (absActive c).sent = pushed c.qs.trace := rfl
          rw [← this, hsent]; simp
        cases hd : c.dtor with
        | notStarted => exact hi.before hd hstop
        | inside d =>
          refine hs .join _ rfl (by simp only [cStep]; rw [hd]; simp only; rw [(hdt d hd).1]; simp only; rw [if_pos he])
        | joined => exact hj hd
  · -- the thread waits
    have hq0 := hempty 0 hpc
    obtain ⟨_, hf, he, hr⟩ := hi.wait 0 _ hpc rfl
    have hhand : inHand c = none := by unfold inHand; rw [hpc]; exact hr
    have hsent : pushed c.qs.trace = c.ran.map .user := by
      have := hA.parts hf
      simp only [absActive, hhand, hq0] at this
      simpa using this
    have hns : ATask.stop ∉ pushed c.qs.trace := by rw [hsent]; simp
    refine ⟨?_, hq0, hpc, hother, by rw [← pushed_eq]; exact hsent⟩
    cases hd : c.dtor with
    | notStarted => rfl
    | inside d => exact absurd (hdt d hd).2 hns
    | joined => exact absurd hd hj

/-- Remaining work of a thread, with the work its item will cause. -/
def pcWork : QPc ATask → Nat
  | .want (.push _) => 14
  | .crit (.push _) => 13
  | p => cost p

/-- Remaining work of the loop in `run`. -/
def loopWork (c : CState) : Nat :=
  if c.exited then 0
  else match c.running with
    | some _ => 7
    | none => match c.qs.pcs[(0 : Nat)]? with
      | some .idle => 6
      | some (.fin .waitPop _) => 7
      | _ => 0

/-- Remaining work altogether. -/
def totalWork (c : CState) : Nat :=
  tot pcWork c.qs.pcs + 8 * c.qs.q.length + loopWork c + (if c.dtor = .joined then 0 else 1)

theorem loopWork_other {c c' : CState} {t : Nat} {p p' : QPc ATask} (hp : c.qs.pcs[t]? = some p)
    (hpcs : c'.qs.pcs = c.qs.pcs.set t p') (hrun : c'.running = c.running) (he : c'.exited = c.exited)
    (h : t ≠ 0 ∨ (∃ x, c.running = some x) ∨ (p ≠ .idle ∧ p' ≠ .idle ∧ (∀ r, p ≠ .fin .waitPop r) ∧ ∀ r, p' ≠ .fin .waitPop r)) :
    loopWork c' = loopWork c := by
  unfold loopWork
  rw [hrun, he]
  by_cases ht : t = 0
  · subst ht
    rcases h with h | ⟨x, h⟩ | ⟨h1, h2, h3, h4⟩
    · exact absurd rfl h
    · rw [h]
    · rw [hpcs, get_set_self hp, hp]
      cases hr : c.running with
      | some x => rfl
      | none =>
        have e : ∀ q : QPc ATask, q ≠ .idle → (∀ r, q ≠ .fin .waitPop r) →
            (match some q with | some .idle => 6 | some (.fin .waitPop _) => 7 | _ => 0 : Nat) = 0 := by
          intro q hq1 hq2
          split
          · next heq => cases heq; exact absurd rfl hq1
          · next r heq => cases heq; exact absurd rfl (hq2 r)
          · rfl
        simp only
        rw [e p' h2 h4, e p h1 h3]
  · rw [hpcs, List.getElem?_set_ne ht]

/-- Inside `push`. -/
def inPush : QPc ATask → Bool
  | .want (.push _) => true
  | .crit (.push _) => true
  | .fin (.push _) _ => true
  | .notify => true
  | _ => false

/-- Thread 0 is inside `push` only while it runs a task. -/
def PushInv (c : CState) : Prop := ∀ pc, c.qs.pcs[(0 : Nat)]? = some pc → inPush pc = true → ∃ x, c.running = some x

theorem pushInv_step (c c' : CState) (l : CLabel) (hi : CInv c) (hp0 : PushInv c) (h : cStep c l = some c') : PushInv c' := by
  intro pc hpc hin
  cases l with
  | send t i =>
    simp only [cStep] at h
    split at h
    · cases h
    · next hc =>
      rw [Option.map_eq_some_iff] at h
      obtain ⟨q, hq, rfl⟩ := h
      obtain ⟨h1, h2, h3, h4⟩ := call_shape hq
      dsimp only at hpc ⊢
      rw [h2] at hpc
      rcases get_set hpc with ⟨ht, rfl⟩ | ⟨_, hu'⟩
      · cases hr : c.running with
        | some x => exact ⟨x, rfl⟩
        | none => exact absurd (Or.inr (Or.inr ⟨ht.symm, by rw [hr]; rfl⟩)) hc
      · exact hp0 pc hu' hin
  | dtorSend d =>
    simp only [cStep] at h
    split at h
    · next hc =>
      rw [Option.map_eq_some_iff] at h
      obtain ⟨q, hq, rfl⟩ := h
      obtain ⟨h1, h2, h3, h4⟩ := call_shape hq
      dsimp only at hpc ⊢
      rw [h2] at hpc
      rcases get_set hpc with ⟨ht, rfl⟩ | ⟨_, hu'⟩
      · exact absurd ht.symm hc.2
      · exact hp0 pc hu' hin
    · cases h
  | enter =>
    simp only [cStep] at h
    split at h
    · next hc =>
      rw [Option.map_eq_some_iff] at h
      obtain ⟨q, hq, rfl⟩ := h
      obtain ⟨h1, h2, h3, h4⟩ := call_shape hq
      dsimp only at hpc ⊢
      rw [h2] at hpc
      rcases get_set hpc with ⟨ht, rfl⟩ | ⟨_, hu'⟩
      · cases hin
      · exact hp0 pc hu' hin
    · cases h
  | mem l =>
    have key : (∀ t op, l ≠ .call t op) → ∀ q, qStep c.qs l = some q → q.pcs[(0 : Nat)]? = some pc → ∃ x, handedOver c l = some x := by
      intro hl q hq hpc
      have hm := qmove_of c.qs q l hl hi.used hq
      have fin : ∀ (u : Nat) (p p' : QPc ATask), c.qs.pcs[u]? = some p → q.pcs = c.qs.pcs.set u p' → (inPush p' = true → inPush p = true) →
          handedOver c l = c.running → ∃ x, handedOver c l = some x := by
        intro u p p' hp hpcs himp hrun
        rw [hrun]
        rw [hpcs] at hpc
        rcases get_set hpc with ⟨ht, rfl⟩ | ⟨_, hu'⟩
        · subst ht; exact hp0 p hp (himp hin)
        · exact hp0 pc hu' hin
      cases hm with
      | quiet _ _ u p p' hp hquiet hpcs hqq htr hun hsp hth hnw =>
        refine fin u p p' hp hpcs ?_ (quiet_run hq hp hquiet hpcs hun)
        intro hh
        cases hquiet with
        | lock op => cases op <;> first | rfl | exact hh
        | _ => first | rfl | exact hh
      | push _ u x hp hpcs hqq htr => exact fin u _ _ hp hpcs (fun _ => rfl) (handedOver_eq (Or.inl (by simp)))
      | pop _ u x hp hpcs hqq htr => exact fin u _ _ hp hpcs (fun hh => by cases hh) (handedOver_eq (Or.inl (by simp)))
      | ret _ u r hp hpcs hqq htr =>
        have ht := (hi.wait u _ hp rfl).1
        subst ht
        rw [hpcs, get_set_self hp] at hpc
        cases hpc
        cases hin
      | notify _ u v hp hw hpcs hqq htr =>
        have huv : v ≠ u := by rintro rfl; rw [hp] at hw; cases hw
        have hv0 := (hi.wait v _ hw rfl).1
        subst hv0
        have hw' : (c.qs.pcs.set u .idle)[(0 : Nat)]? = some .waiting := by rw [List.getElem?_set_ne (Ne.symm huv)]; exact hw
        rw [hpcs, get_set_self hw'] at hpc
        cases hpc
        cases hin
    cases l with
    | call t op => simp only [cStep] at h; cases h
    | _ =>
      simp only [cStep] at h
      split at h
      · cases h
      · rw [Option.map_eq_some_iff] at h
        obtain ⟨q, hq, rfl⟩ := h
        exact key (by intro t op hh; cases hh) q hq hpc
  | finish =>
    simp only [cStep] at h
    split at h
    · next hidle =>
      have : c'.qs = c.qs := by
        split at h
        · cases h; rfl
        · cases h; rfl
        · cases h
      rw [this, hidle] at hpc
      cases hpc
      cases hin
    · cases h
  | leave =>
    simp only [cStep] at h
    split at h
    · split at h
      · cases h; exact hp0 pc hpc hin
      · cases h
    · cases h
  | join =>
    simp only [cStep] at h
    repeat' (split at h)
    all_goals first | (cases h; done) | (cases h; exact hp0 pc hpc hin)

/-- C68: every such step reduces the remaining work. -/
theorem C68_progress (n : Nat) (ls : List CLabel) (c : CState) (h : cRun (CState.start n) ls = some c) (l : CLabel) (c' : CState)
    (hl : progress l = true) (hs : cStep c l = some c') : totalWork c' < totalWork c := by
  have hboth := crun_induct (P := fun c => CInv c ∧ PushInv c)
    (fun s s' l hi hs => ⟨cinv_step s s' l hi.1 hs, pushInv_step s s' l hi.1 hi.2 hs⟩) ls _ c
    ⟨cinv_start n, fun pc hp hin => by rw [start_get hp] at hin; cases hin⟩ h
  obtain ⟨hi, hpi⟩ := hboth
  cases l with
  | send t i => cases hl
  | dtorSend d => cases hl
  | mem l =>
    have hnc : ∀ t op, l ≠ .call t op := by rintro t op rfl; cases hl
    have hj : c.dtor ≠ .joined := by
      intro hj
      cases l <;> simp [cStep, hj] at hs
    rw [mem_step hj hnc, Option.map_eq_some_iff] at hs
    obtain ⟨q, hq, rfl⟩ := hs
    have hm := qmove_of c.qs q l hnc hi.used hq
    unfold totalWork
    cases hm with
    | quiet _ _ t p p' hp hquiet hpcs hqq htr hun hsp hth hnw =>
      have hrun := quiet_run hq hp hquiet hpcs hun
      have hlw : loopWork { c with qs := q, running := handedOver c l } = loopWork c := by
        refine loopWork_other hp hpcs hrun rfl ?_
        by_cases ht : t = 0
        · subst ht
          cases hquiet with
          | done => right; left; exact hpi _ hp rfl
          | _ => right; right; exact ⟨by simp, by simp, by simp, by simp⟩
        · exact Or.inl ht
      have hw := tot_set pcWork c.qs.pcs t p p' hp
      have hlt : pcWork p' < pcWork p := by
        cases hquiet with
        | lock op => cases op <;> simp [pcWork, cost]
        | wake =>
          obtain ⟨u, rfl⟩ := hsp rfl
          cases hl
        | _ => simp [pcWork, cost]
      rw [hlw]
      dsimp only
      rw [hpcs, hqq]
      omega
    | push _ t x hp hpcs hqq htr =>
      have hrun : handedOver c (.act t) = c.running := handedOver_eq (Or.inl (by simp))
      have hlw : loopWork { c with qs := q, running := handedOver c (.act t) } = loopWork c := by
        refine loopWork_other hp hpcs hrun rfl ?_
        right; right; exact ⟨by simp, by simp, by simp, by simp⟩
      have hw := tot_set pcWork c.qs.pcs t _ (.fin (.push x) .unit) hp
      simp only [pcWork, cost] at hw
      rw [hlw]
      dsimp only
      rw [hpcs, hqq, List.length_append, List.length_singleton]
      omega
    | pop _ t x hp hpcs hqq htr =>
      have hrun : handedOver c (.act t) = c.running := handedOver_eq (Or.inl (by simp))
      obtain ⟨rfl, hf, he, hr⟩ := hi.wait t _ hp rfl
      have hlw : loopWork { c with qs := q, running := handedOver c (.act 0) } = 7 := by
        unfold loopWork
        dsimp only
        rw [hrun, hr, he, hpcs, get_set_self hp]
        rfl
      have hw := tot_set pcWork c.qs.pcs 0 _ (.fin .waitPop (.item x)) hp
      simp only [pcWork, cost] at hw
      rw [hlw]
      dsimp only
      rw [hpcs, hqq, List.length_cons]
      omega
    | ret _ t r hp hpcs hqq htr =>
      obtain ⟨rfl, hf, he, hr⟩ := hi.wait t _ hp rfl
      obtain ⟨x, rfl⟩ := hi.item 0 r hp
      have hlw : loopWork { c with qs := q, running := handedOver c (.unlock 0) } = 7 := by
        unfold loopWork
        have : handedOver c (.unlock 0) = some x := by simp [handedOver, hp]
        dsimp only
        rw [this, he]
        rfl
      have hlw' : loopWork c = 7 := by
        unfold loopWork
        rw [hr, he, hp]
        rfl
      have hw := tot_set pcWork c.qs.pcs 0 _ .idle hp
      simp only [pcWork, cost] at hw
      rw [hlw, hlw']
      dsimp only
      rw [hpcs, hqq]
      omega
    | notify _ t u hp hw hpcs hqq htr =>
      have hrun : handedOver c (.notify t (some u)) = c.running := handedOver_eq (Or.inl (by simp))
      have htu : u ≠ t := by rintro rfl; rw [hp] at hw; cases hw
      obtain ⟨rfl, hf, he, hr⟩ := hi.wait u _ hw rfl
      have hw' : (c.qs.pcs.set t .idle)[(0 : Nat)]? = some .waiting := by
        rw [List.getElem?_set_ne (Ne.symm htu)]; exact hw
      have hlw : loopWork { c with qs := q, running := handedOver c (.notify t (some 0)) } = loopWork c := by
        unfold loopWork
        dsimp only
        rw [hrun, hr, he, hpcs, get_set_self hw', hw]
      have w1 := tot_set pcWork c.qs.pcs t _ .idle hp
      have w2 := tot_set pcWork (c.qs.pcs.set t .idle) 0 _ .woken hw'
      simp only [pcWork, cost] at w1 w2
      rw [hlw]
      dsimp only
      rw [hpcs, hqq]
      omega
  | enter =>
    simp only [cStep] at hs
    split at hs
    · next hc =>
      rw [Option.map_eq_some_iff] at hs
      obtain ⟨q, hq, rfl⟩ := hs
      obtain ⟨h1, h2, h3, h4⟩ := call_shape hq
      have hw := tot_set pcWork c.qs.pcs 0 _ (.want .waitPop) h1
      simp only [pcWork, cost] at hw
      have l1 : loopWork c = 6 := by
        unfold loopWork
        rw [hc.2.1, hc.2.2, h1]; rfl
      have l2 : loopWork { c with qs := q } = 0 := by
        unfold loopWork
        dsimp only
        rw [hc.2.1, hc.2.2, h2, get_set_self h1]; rfl
      unfold totalWork
      rw [l1, l2]
      dsimp only
      rw [h2, h3]
      omega
    · cases hs
  | finish =>
    simp only [cStep] at hs
    split at hs
    · next hidle =>
      have hex : ∀ x, c.running = some x → c.exited = false := by
        intro x hx
        cases he : c.exited with
        | false => rfl
        | true =>
          obtain ⟨_, als, ha⟩ := C68_refines n ls c h
          have hA : AInv (absActive c) := arun_induct (fun s s' l hi hs => ainv_step s s' l hi hs) als _ _ ainv_start ha
          obtain ⟨_, _, hnone⟩ := hA.after (hi.exit he)
          have : inHand c = c.running := by unfold inHand; rw [hidle]
          simp only [absActive, this, hx] at hnone
          cases hnone
      split at hs
      · next i hr =>
        cases hs
        unfold totalWork loopWork
        dsimp only
        rw [hex _ hr, hr, hidle]
        simp
      · next hr =>
        cases hs
        unfold totalWork loopWork
        dsimp only
        rw [hex _ hr, hr, hidle]
        simp
      · cases hs
    · cases hs
  | leave =>
    simp only [cStep] at hs
    split at hs
    · next hidle =>
      split at hs
      · next hc =>
        cases hs
        unfold totalWork loopWork
        dsimp only
        rw [hc.2.1, hc.2.2, hidle]
        simp
      · cases hs
    · cases hs
  | join =>
    simp only [cStep] at hs
    split at hs
    · next d hd =>
      split at hs
      · split at hs
        · next he =>
          cases hs
          unfold totalWork loopWork
          dsimp only
          rw [he, hd]
          simp
        · cases hs
      · cases hs
    · cases hs

/-- C68: hence the number of such steps is bounded, whatever the scheduler does, and with `C68_stuck`: once the destructor has been
entered it returns, after a bounded number of steps, provided nobody keeps sending. -/
theorem C68_bounded (n : Nat) (ls : List CLabel) (c : CState) (h : cRun (CState.start n) ls = some c) :
    ∀ (ls' : List CLabel) (c' : CState), (∀ l ∈ ls', progress l = true) → cRun c ls' = some c' →
      ls'.length + totalWork c' ≤ totalWork c := by
  intro ls'
  induction ls' generalizing ls c with
  | nil => intro c' _ hr; cases hr; simp
  | cons l ls' ih =>
    intro c' hl hr
    simp only [cRun] at hr
    cases hs : cStep c l with
    | none => rw [hs] at hr; cases hr
    | some u =>
      rw [hs] at hr
      have h1 := C68_progress n ls c h l u (hl l (by simp)) hs
      have happ : ∀ (a : List CLabel) (s : CState), cRun s a = some c → cRun s (a ++ [l]) = some u := by
        intro a
        induction a with
        | nil => intro s hh; cases hh; simp [cRun, hs]
        | cons x a iha =>
          intro s hh
          simp only [List.cons_append, cRun] at hh ⊢
          cases hx : cStep s x with
          | none => rw [hx] at hh; cases hh
          | some w => rw [hx] at hh; exact iha w hh
      have h2 := ih (ls ++ [l]) u (happ ls _ h) c' (fun x hx => hl x (List.mem_cons_of_mem _ hx)) hr
      rw [List.length_cons]
      omega

/-- Two senders and the destructor at once, with a wait, a task that sends, and contention on the lock: a complete run. -/
example : ∃ c, cRun (CState.start 3)
    [.enter, .mem (.lock 0), .mem (.act 0), .send 1 7, .mem (.lock 1), .mem (.act 1), .send 2 8, .mem (.unlock 1),
     .mem (.notify 1 (some 0)), .mem (.lock 2), .mem (.act 2), .mem (.unlock 2), .mem (.lock 0), .mem (.act 0), .mem (.notify 2 none),
     .mem (.unlock 0), .send 0 9, .mem (.lock 0), .mem (.act 0), .mem (.unlock 0), .mem (.notify 0 none), .finish, .dtorSend 1,
     .mem (.lock 1), .mem (.act 1), .enter, .mem (.unlock 1), .mem (.lock 0), .mem (.act 0), .mem (.notify 1 none), .mem (.unlock 0),
     .finish, .enter, .mem (.lock 0), .mem (.act 0), .mem (.unlock 0), .finish,
     .enter, .mem (.lock 0), .mem (.act 0), .mem (.unlock 0), .finish, .leave, .join] = some c ∧ c.ran = [7, 8, 9] ∧ c.dtor = .joined :=
  ⟨_, rfl, rfl, rfl⟩

end G3.Props
