import Verif.Props.WorkerLocksLive
/-
C93, termination: left to itself the worker comes to rest. Without new input and without wake-ups without reason, no infinite sequence of steps exists, whatever the
scheduler does, down to single operations on locks and condition variables.
-/
namespace G3.Props
open G3 G3.Spec

variable {M : Type} {n : Nat} {k k' : KState M}

/-! ### One queue -/

section queue
variable {T : Type}

/-- How many steps a thread inside the queue has left, at most, with those of a thread it may wake up. -/
def pcCostQ : QPc T → Nat
  | .idle => 0
  | .want (.push _) => 7
  | .crit (.push _) => 6
  | .fin (.push _) _ => 5
  | .notify => 4
  | .want _ => 3
  | .woken => 3
  | .crit _ => 2
  | .fin _ _ => 1
  | .waiting => 0

/-- The consumer is outside, and can come back. -/
def rest0 (s : QState T) : Nat := match s.pcs[(0 : Nat)]? with | some .idle => 4 | _ => 0

/-- Weights that only pushes have which have not entered their item yet. -/
structure Early (f : QPc T → Nat) : Prop where
  out : ∀ p, earlyPc p = none → f p = 0
  same : ∀ x, f (.want (.push x)) = f (.crit (.push x))

/-- What a step inside the queue does to the threads. -/
inductive QTurn (s : QState T) : QLabel T → List (QPc T) → Prop
  | lockWant {t : Nat} {op : QOp T} : s.pcs[t]? = some (.want op) → QTurn s (.lock t) (s.pcs.set t (.crit op))
  | lockWoken {t : Nat} : s.pcs[t]? = some .woken → QTurn s (.lock t) (s.pcs.set t (.crit .waitPop))
  | actPush {t : Nat} {x : T} : s.pcs[t]? = some (.crit (.push x)) → QTurn s (.act t) (s.pcs.set t (.fin (.push x) .unit))
  | actOther {t : Nat} {op : QOp T} {r : QRes T} : s.pcs[t]? = some (.crit op) → (∀ x, op ≠ .push x) → QTurn s (.act t) (s.pcs.set t (.fin op r))
  | actWait {t : Nat} {op : QOp T} : s.pcs[t]? = some (.crit op) → (∀ x, op ≠ .push x) → QTurn s (.act t) (s.pcs.set t .waiting)
  | unlockPush {t : Nat} {x : T} {r : QRes T} : s.pcs[t]? = some (.fin (.push x) r) → QTurn s (.unlock t) (s.pcs.set t .notify)
  | unlockOther {t : Nat} {op : QOp T} {r : QRes T} : s.pcs[t]? = some (.fin op r) → (∀ x, op ≠ .push x) → QTurn s (.unlock t) (s.pcs.set t .idle)
  | notifyNone {t : Nat} : s.pcs[t]? = some .notify → QTurn s (.notify t none) (s.pcs.set t .idle)
  | notifyOne {t u : Nat} : s.pcs[t]? = some .notify → s.pcs[u]? = some .waiting → QTurn s (.notify t (some u)) ((s.pcs.set t .idle).set u .woken)
  | spurious {t : Nat} : s.pcs[t]? = some .waiting → QTurn s (.spurious t) (s.pcs.set t .woken)

theorem qturn {s s' : QState T} {l : QLabel T} (h : qStep s l = some s') (hc : ∀ t op, l ≠ .call t op) : QTurn s l s'.pcs := by
  cases l with
  | call t op => exact absurd rfl (hc t op)
  | lock t =>
    simp only [qStep] at h
    split at h
    · cases h
    · split at h
      · next hp => cases h; exact .lockWant hp
      · next hp => cases h; exact .lockWoken hp
      · cases h
  | act t =>
    simp only [qStep] at h
    split at h
    · next op hp =>
      split at h
      · next q r hq =>
        cases h
        cases op with
        | push x => simp only [critical] at hq; injection hq with e; injection e with _ e; subst e; exact .actPush hp
        | _ => exact .actOther hp (fun _ e => by cases e)
      · next hq =>
        cases h
        cases op with
        | push x => cases hq
        | _ => exact .actWait hp (fun _ e => by cases e)
    · cases h
  | unlock t =>
    simp only [qStep] at h
    split at h
    · next hp => cases h; exact .unlockPush hp
    · next op r hx hp => cases h; exact .unlockOther hp hx
    · cases h
  | notify t u =>
    simp only [qStep] at h
    split at h
    · next hp =>
      split at h
      · split at h
        · cases h
        · cases h; exact .notifyNone hp
      · split at h
        · next hu => cases h; exact .notifyOne hp hu
        · cases h
    · cases h
  | spurious t =>
    simp only [qStep] at h
    split at h
    · next hp => cases h; exact .spurious hp
    · cases h

theorem ne_of_pcs {s : QState T} {t u : Nat} {p q : QPc T} (h1 : s.pcs[t]? = some p) (h2 : s.pcs[u]? = some q) (hn : p ≠ q) : t ≠ u := by
  rintro rfl
  rw [h1] at h2
  exact hn (by injection h2)

theorem tot_early {f : QPc T → Nat} (hf : Early f) {s s' : QState T} {l : QLabel T} (h : qStep s l = some s') (hc : ∀ t op, l ≠ .call t op) :
    tot f s'.pcs ≤ tot f s.pcs ∧
    ∀ (t : Nat) x, l = .act t → s.pcs[t]? = some (.crit (.push x)) → tot f s'.pcs + f (.crit (.push x)) = tot f s.pcs := by
  have z : ∀ p : QPc T, earlyPc p = none → f p = 0 := hf.out
  have set1 : ∀ {t : Nat} {p : QPc T} (p' : QPc T), s.pcs[t]? = some p → tot f (s.pcs.set t p') + f p = tot f s.pcs + f p' :=
    fun p' hp => tot_set f _ _ _ _ hp
  have m := qturn h hc
  generalize s'.pcs = ps at m ⊢
  cases m with
  | @lockWant t op hp =>
    refine ⟨?_, fun t x e => by cases e⟩
    have := set1 (.crit op) hp
    cases op with
    | push x => have := hf.same x; omega
    | _ => rw [z _ rfl, z _ rfl] at this; omega
  | lockWoken hp =>
    refine ⟨?_, fun t x e => by cases e⟩
    have := set1 (.crit .waitPop) hp
    rw [z _ rfl, z _ rfl] at this; omega
  | @actPush t x hp =>
    have := set1 (.fin (.push x) .unit) hp
    rw [z (.fin _ _) rfl] at this
    refine ⟨by omega, fun u y e hy => ?_⟩
    injection e with e; subst e
    rw [hp] at hy; injection hy with e; injection e with e; injection e with e; subst e
    omega
  | @actOther t op r hp ho =>
    have := set1 (.fin op r) hp
    rw [z (.fin _ _) rfl] at this
    refine ⟨by omega, fun u y e hy => ?_⟩
    injection e with e; subst e
    rw [hp] at hy; injection hy with e; injection e with e
    exact absurd e (ho y)
  | @actWait t op hp ho =>
    have := set1 .waiting hp
    rw [z .waiting rfl] at this
    refine ⟨by omega, fun u y e hy => ?_⟩
    injection e with e; subst e
    rw [hp] at hy; injection hy with e; injection e with e
    exact absurd e (ho y)
  | unlockPush hp =>
    refine ⟨?_, fun t x e => by cases e⟩
    have := set1 .notify hp
    rw [z .notify rfl] at this; omega
  | unlockOther hp ho =>
    refine ⟨?_, fun t x e => by cases e⟩
    have := set1 .idle hp
    rw [z .idle rfl] at this; omega
  | notifyNone hp =>
    refine ⟨?_, fun t x e => by cases e⟩
    have := set1 .idle hp
    rw [z .idle rfl] at this; omega
  | @notifyOne t u hp hu =>
    refine ⟨?_, fun t x e => by cases e⟩
    have h1 := set1 .idle hp
    have hne := ne_of_pcs hp hu (by simp)
    have hu' : (s.pcs.set t .idle)[u]? = some .waiting := by rw [List.getElem?_set_ne hne]; exact hu
    have h2 := tot_set f _ _ _ .woken hu'
    rw [z .idle rfl] at h1
    rw [z .woken rfl] at h2; omega
  | spurious hp =>
    refine ⟨?_, fun t x e => by cases e⟩
    have := set1 .woken hp
    rw [z .woken rfl] at this; omega

theorem cost_step {s s' : QState T} {l : QLabel T} (h : qStep s l = some s') (hc : ∀ t op, l ≠ .call t op) (hs : ∀ t, l ≠ .spurious t) :
    tot pcCostQ s'.pcs < tot pcCostQ s.pcs := by
  have set1 : ∀ {t : Nat} {p : QPc T} (p' : QPc T), s.pcs[t]? = some p → tot pcCostQ (s.pcs.set t p') + pcCostQ p = tot pcCostQ s.pcs + pcCostQ p' :=
    fun p' hp => tot_set pcCostQ _ _ _ _ hp
  have m := qturn h hc
  generalize s'.pcs = ps at m ⊢
  cases m with
  | @lockWant t op hp =>
    have := set1 (.crit op) hp
    cases op <;> simp only [pcCostQ] at this <;> omega
  | lockWoken hp => have := set1 (.crit .waitPop) hp; simp only [pcCostQ] at this; omega
  | @actPush t x hp => have := set1 (.fin (.push x) .unit) hp; simp only [pcCostQ] at this; omega
  | @actOther t op r hp ho =>
    have := set1 (.fin op r) hp
    cases op with
    | push x => exact absurd rfl (ho x)
    | _ => simp only [pcCostQ] at this; omega
  | @actWait t op hp ho =>
    have := set1 .waiting hp
    cases op with
    | push x => exact absurd rfl (ho x)
    | _ => simp only [pcCostQ] at this; omega
  | unlockPush hp => have := set1 .notify hp; simp only [pcCostQ] at this; omega
  | @unlockOther t op r hp ho =>
    have := set1 .idle hp
    cases op with
    | push x => exact absurd rfl (ho x)
    | _ => simp only [pcCostQ] at this; omega
  | notifyNone hp => have := set1 .idle hp; simp only [pcCostQ] at this; omega
  | @notifyOne t u hp hu =>
    have h1 := set1 .idle hp
    have hne := ne_of_pcs hp hu (by simp)
    have hu' : (s.pcs.set t .idle)[u]? = some .waiting := by rw [List.getElem?_set_ne hne]; exact hu
    have h2 := tot_set pcCostQ _ _ _ .woken hu'
    simp only [pcCostQ] at h1 h2; omega
  | spurious hp => exact absurd rfl (hs _)

theorem rest_set_ne {s s' : QState T} {t : Nat} {p : QPc T} (ht : t ≠ 0) (h : s'.pcs = s.pcs.set t p) : rest0 s' = rest0 s := by
  unfold rest0
  rw [h, List.getElem?_set_ne ht]

theorem rest_busy {s : QState T} {p : QPc T} (h : s.pcs[(0 : Nat)]? = some p) (hp : p ≠ .idle) : rest0 s = 0 := by
  unfold rest0
  rw [h]
  cases p <;> first | rfl | exact absurd rfl hp

theorem rest_le {s : QState T} : rest0 s ≤ 4 := by
  unfold rest0
  split <;> omega

/-- The consumer comes out only when it leaves `wait_and_pop` with an item. -/
theorem rest_step {s s' : QState T} {l : QLabel T} (hi : QOne n s) (h : qStep s l = some s') (hc : ∀ t op, l ≠ .call t op)
    (hu : ∀ (t : Nat) x, l = .unlock t → s.pcs[t]? ≠ some (.fin .waitPop (.item x))) : rest0 s' ≤ rest0 s := by
  have m := qturn h hc
  generalize hps : s'.pcs = ps at m
  have set1 : ∀ {t : Nat} {p p' : QPc T}, s.pcs[t]? = some p → ps = s.pcs.set t p' → (t = 0 → p' ≠ .idle) → rest0 s' ≤ rest0 s := by
    intro t p p' hp e hx
    by_cases ht : t = 0
    · subst ht
      rw [rest_busy (s := s') (p := p') (by rw [hps, e]; exact List.getElem?_set_self (lt_of_pc hp)) (hx rfl)]
      omega
    · exact Nat.le_of_eq (rest_set_ne ht (by rw [hps, e]))
  cases m with
  | lockWant hp => exact set1 hp rfl (fun _ e => by cases e)
  | lockWoken hp => exact set1 hp rfl (fun _ e => by cases e)
  | actPush hp => exact set1 hp rfl (fun _ e => by cases e)
  | actOther hp _ => exact set1 hp rfl (fun _ e => by cases e)
  | actWait hp _ => exact set1 hp rfl (fun _ e => by cases e)
  | unlockPush hp => exact set1 hp rfl (fun _ e => by cases e)
  | @unlockOther t op r hp ho =>
    refine set1 hp rfl (fun e => ?_)
    subst e
    obtain ⟨rfl, x, rfl⟩ := hi.cons _ hp
    exact absurd hp (hu 0 x rfl)
  | notifyNone hp => exact set1 hp rfl (fun e => by subst e; exact (hi.cons _ hp).elim)
  | @notifyOne t u hp hq =>
    by_cases hu0 : u = 0
    · subst hu0
      have hne := ne_of_pcs hp hq (by simp)
      rw [rest_busy (s := s') (p := .woken) (by
        rw [hps]
        exact List.getElem?_set_self (by rw [List.length_set]; exact lt_of_pc hq)) (by simp)]
      omega
    · have ht0 : t ≠ 0 := fun e => by subst e; exact (hi.cons _ hp).elim
      refine Nat.le_of_eq ?_
      unfold rest0
      rw [hps, List.getElem?_set_ne hu0, List.getElem?_set_ne ht0]
  | spurious hp => exact set1 hp rfl (fun _ e => by cases e)

/-- A call of thread `t`. -/
theorem call_pcs {s s' : QState T} {t : Nat} {op : QOp T} (h : qStep s (.call t op) = some s') : s.pcs[t]? = some .idle ∧ s'.pcs = s.pcs.set t (.want op) := by
  simp only [qStep] at h
  split at h
  · next hp => cases h; exact ⟨hp, rfl⟩
  · cases h

end queue

/-! ### Hand-overs that threads have begun -/

/-- A task is about to enter the worker's queue; the final one counts before. -/
def owedW (p : QPc (KTask M)) : Nat := match earlyPc p with | some x => if isEnd x then 0 else 1 | none => 0

/-- A call of a client is about to enter the queue of a sink. -/
def owedS (p : QPc (SItem M)) : Nat := match earlyPc p with | some (.call _) => 1 | _ => 0

theorem early_owedW : Early (owedW : QPc (KTask M) → Nat) := ⟨fun p h => by unfold owedW; rw [h], fun _ => rfl⟩
theorem early_owedS : Early (owedS : QPc (SItem M) → Nat) := ⟨fun p h => by unfold owedS; rw [h], fun _ => rfl⟩

/-- How many there are. -/
def owed (k : KState M) : Nat := tot owedW k.wq.pcs + sumTo (fun i => tot owedS (k.sq i).pcs) k.ctl.n

theorem sumTo_le {f g : Nat → Nat} : ∀ n, (∀ i, i < n → f i ≤ g i) → sumTo f n ≤ sumTo g n := by
  intro n
  induction n with
  | zero => intro _; exact Nat.le_refl _
  | succ n ih =>
    intro h
    have h1 := ih (fun i hi => h i (by omega))
    have h2 := h n (by omega)
    simp only [sumTo]; omega

/-- No new ones. -/
structure NoMore (k k' : KState M) : Prop where
  n : k'.ctl.n = k.ctl.n
  w : tot owedW k'.wq.pcs ≤ tot owedW k.wq.pcs
  s : ∀ i, tot owedS (k'.sq i).pcs ≤ tot owedS (k.sq i).pcs
  d : k'.dthr = k.dthr
  r : k'.race = k.race
  u : k'.ctl.ub = k.ctl.ub

theorem NoMore.le (h : NoMore k k') : owed k' ≤ owed k := by
  unfold owed
  rw [h.n]
  have h1 := h.w
  have h2 := sumTo_le (f := fun i => tot owedS (k'.sq i).pcs) (g := fun i => tot owedS (k.sq i).pcs) k.ctl.n (fun i _ => h.s i)
  omega

theorem nomore_ctl {c : WState M} (h : c.n = k.ctl.n) (hu : c.ub = k.ctl.ub) : NoMore k { k with ctl := c } := ⟨h, Nat.le_refl _, fun _ => Nat.le_refl _, rfl, rfl, hu⟩

theorem nomore_enterSink {t i : Nat} {x : SItem M} (hx : ∀ c, x ≠ .call c) (e : k.enterSink t i x = some k') : NoMore k k' := by
  obtain ⟨q, hq, rfl⟩ := Option.map_eq_some_iff.1 e
  refine ⟨rfl, Nat.le_refl _, fun j => ?_, rfl, rfl, rfl⟩
  show tot owedS (updQ k.sq i q j).pcs ≤ _
  by_cases hj : j = i
  · subst hj
    rw [updQ_self]
    obtain ⟨h1, h2⟩ := call_pcs hq
    rw [h2]
    have := tot_set owedS _ _ _ (.want (.push x)) h1
    have h3 : owedS (.want (.push x)) = 0 := by cases x <;> first | rfl | exact absurd rfl (hx _)
    rw [h3] at this
    omega
  · rw [updQ_ne _ _ hj]; exact Nat.le_refl _

theorem NoMore.after {c : WState M} (b : NoMore { k with ctl := c } k') (h : c.n = k.ctl.n) (hu : c.ub = k.ctl.ub) : NoMore k k' := ⟨b.n.trans h, b.w, b.s, b.d, b.r, b.u.trans hu⟩

theorem nomore_stopSink {t i : Nat} {r : Bool} (e : k.stopSink t i r = some k') : NoMore k k' := by
  unfold KState.stopSink at e
  have := nomore_enterSink (fun c e => by cases e) e
  exact this.after rfl rfl

theorem nomore_drop {t i : Nat} (e : k.drop t i = some k') : NoMore k k' := by
  unfold KState.drop at e
  split at e
  · cases e; exact ⟨rfl, Nat.le_refl _, fun _ => Nat.le_refl _, rfl, rfl, rfl⟩
  · exact nomore_stopSink e

theorem takeTask_n {s s' : WState M} (h : takeTask s = some s') : s'.n = s.n ∧ s'.ub = s.ub := by
  unfold takeTask at h
  split at h
  · cases h
  · split at h <;> (cases h; exact ⟨rfl, rfl⟩)
  · cases h; exact ⟨rfl, rfl⟩
  · cases h; exact ⟨rfl, rfl⟩
  · split at h <;> (cases h; exact ⟨rfl, rfl⟩)
  · cases h; exact ⟨rfl, rfl⟩
  · cases h; exact ⟨rfl, rfl⟩

theorem nomore_work (A : AllInv (abs k)) (e : k.work = some k') : NoMore k k' := by
  unfold KState.work at e
  split at e
  · cases e
  split at e
  · obtain ⟨c, hc, rfl⟩ := Option.map_eq_some_iff.1 e
    have hn := takeTask_n hc
    exact ⟨hn.1, Nat.le_refl _, fun _ => Nat.le_refl _, rfl, rfl, hn.2⟩
  · split at e
    · cases e
    · next x i r hp =>
      refine nomore_enterSink (fun c ec => ?_) e
      have ht := A.w.book.task
      rw [show (abs k).wpc = _ from hp, ec] at ht
      exact ht
    · cases e; exact nomore_ctl rfl rfl
    · cases e; exact nomore_ctl rfl rfl
    · split at e
      · cases e; exact nomore_ctl rfl rfl
      · exact NoMore.after (nomore_stopSink e) rfl rfl
    · split at e
      · cases e; exact nomore_ctl rfl rfl
      · cases e
    · split at e
      · split at e <;> (cases e; exact nomore_ctl rfl rfl)
      · split at e
        · cases e; exact nomore_ctl rfl rfl
        · exact NoMore.after (nomore_stopSink e) rfl rfl
    · split at e
      · cases e; exact nomore_ctl rfl rfl
      · cases e
    · cases e
    · cases e

theorem nomore_dtor {t : Nat} (hd : k.dthr = some t) (e : k.dtor t = some k') : NoMore k k' ∧ k.ctl.phase ≠ .notStarted := by
  unfold KState.dtor at e
  rw [if_neg (by rw [hd]; simp)] at e
  split at e
  · split at e
    · cases e
    · next hp =>
      refine ⟨?_, by rw [hp]; simp⟩
      split at e
      · obtain ⟨q, hq, rfl⟩ := Option.map_eq_some_iff.1 e
        refine ⟨rfl, ?_, fun _ => Nat.le_refl _, rfl, rfl, rfl⟩
        obtain ⟨h1, h2⟩ := call_pcs hq
        show tot owedW q.pcs ≤ _
        rw [h2]
        have := tot_set owedW _ _ _ (.want (.push .done)) h1
        have h3 : owedW (.want (.push (.done : KTask M))) = 0 := rfl
        rw [h3] at this
        have h4 : tot owedW k.wq.pcs = tot owedW ({ k with ctl := { k.ctl with sub := k.ctl.sub ++ [WTask.done], phase := .stopping } } : KState M).wq.pcs := rfl
        omega
      · cases e
    · next hp =>
      refine ⟨?_, by rw [hp]; simp⟩
      split at e
      · cases e; exact ⟨rfl, Nat.le_refl _, fun _ => Nat.le_refl _, rfl, rfl, rfl⟩
      · cases e
    · next hp =>
      refine ⟨?_, by rw [hp]; simp⟩
      split at e
      · cases e; exact nomore_ctl rfl rfl
      · split at e
        · cases e; exact nomore_ctl rfl rfl
        · exact NoMore.after (nomore_stopSink e) rfl rfl
    · next hp =>
      refine ⟨?_, by rw [hp]; simp⟩
      split at e
      · cases e; exact nomore_ctl rfl rfl
      · cases e
    · cases e
  · cases e

/-- Steps of threads outside the queues. -/
theorem owed_thr (A : AllInv (abs k)) {t : Nat} {w : WLabel M} (hi : kInternal k (.thr t w)) (e : k.act t w = some k') :
    NoMore k k' ∧ ∀ v, lin k (.thr t w) = some v → internal (abs k) v := by
  cases w with
  | ret c =>
    refine ⟨?_, fun v hv => by cases hv; trivial⟩
    simp only [KState.act] at e
    split at e
    · cases e
    · split at e
      · split at e
        · exact NoMore.after (nomore_drop e) rfl rfl
        · cases e; exact nomore_ctl rfl rfl
      · cases e
  | reap i =>
    refine ⟨?_, fun v hv => by cases hv; trivial⟩
    simp only [KState.act] at e
    split at e
    · cases e; exact nomore_ctl rfl rfl
    · cases e
  | dtor =>
    obtain ⟨h1, h2⟩ := nomore_dtor hi e
    refine ⟨h1, fun v hv => ?_⟩
    simp only [lin] at hv
    split at hv
    · cases hv
    · cases hv; exact h2
  | work =>
    refine ⟨nomore_work A e, fun v hv => ?_⟩
    simp only [lin, working] at hv
    split at hv
    · cases hv
    · cases hv; trivial
  | sinkPop i =>
    refine ⟨?_, fun v hv => by cases hv⟩
    simp only [KState.act] at e
    split at e
    · obtain ⟨q, hq, rfl⟩ := Option.map_eq_some_iff.1 e
      refine ⟨rfl, Nat.le_refl _, fun j => ?_, rfl, rfl, rfl⟩
      show tot owedS (updQ k.sq i q j).pcs ≤ _
      by_cases hj : j = i
      · subst hj
        rw [updQ_self]
        obtain ⟨h1, h2⟩ := call_pcs hq
        rw [h2]
        have := tot_set owedS _ _ _ (.want .waitPop) h1
        have h3 : owedS (.want .waitPop : QPc (SItem M)) = 0 := rfl
        rw [h3] at this
        omega
      · rw [updQ_ne _ _ hj]; exact Nat.le_refl _
    · cases e
  | sinkFin i =>
    refine ⟨?_, fun v hv => by cases hv; trivial⟩
    simp only [KState.act] at e
    split at e
    · cases e
    · obtain ⟨c, hc, rfl⟩ := Option.map_eq_some_iff.1 e
      unfold sinkFin at hc
      split at hc
      · split at hc
        · cases hc
        · cases hc; exact nomore_ctl rfl rfl
        · cases hc; exact nomore_ctl rfl rfl
      · cases hc
  | save m => exact hi.elim
  | fatal m => exact hi.elim
  | add => exact hi.elim
  | remove i => exact hi.elim
  | clear => exact hi.elim
  | hold i => exact hi.elim
  | holdFail i c => exact hi.elim
  | call i c => exact hi.elim
  | release i => exact hi.elim
  | sinkFatal i m => exact hi.elim

theorem owed_unborn (h : KInv n k) : tot owedS (k.sq k.ctl.n).pcs = 0 := by
  by_contra hc
  obtain ⟨t, p, hp, hq⟩ := tot_pos owedS _ (Nat.pos_of_ne_zero hc)
  have hb : p.isIdle = false := by
    cases p <;> first | rfl | exact absurd hq (Nat.lt_irrefl 0)
  exact Nat.lt_irrefl _ (h.sni _ _ _ hp hb).lt

theorem owed_put (h : KInv n k) {t : Nat} {j : KTask M} (hp : k.wq.pcs[t]? = some (.crit (.push j))) (e : k.put t j = some k') (hr : k'.race = false) (hr0 : k.race = false) :
    owed k' ≤ owed k ∧ (isEnd j = false → owed k' < owed k) := by
  unfold KState.put at e
  split at e
  · cases e; cases hr
  · obtain ⟨q, hq, rfl⟩ := Option.map_eq_some_iff.1 e
    rw [number_eq hp] at hq
    have hs : ({ k.wq with pcs := k.wq.pcs.set t (.crit (.push (numbered k.ctl.n j))) } : QState (KTask M)).pcs[t]? = some (.crit (.push (numbered k.ctl.n j))) :=
      List.getElem?_set_self (lt_of_pc hp)
    have h1 := (tot_early early_owedW hq (fun _ _ e => by cases e)).2 t _ rfl hs
    have h2 := tot_set owedW _ _ _ (.crit (.push (numbered k.ctl.n j))) hp
    have h3 : owedW (.crit (.push (numbered k.ctl.n j))) = owedW (.crit (.push j)) := by cases j <;> rfl
    simp only at h1
    rw [h3] at h1 h2
    have h4 : owedW (.crit (.push j)) = if isEnd j then 0 else 1 := rfl
    have h5 : sumTo (fun i => tot owedS (k.sq i).pcs) (j.effect k.ctl).n = sumTo (fun i => tot owedS (k.sq i).pcs) k.ctl.n := by
      cases j with
      | add i => simp only [KTask.effect, sumTo]; rw [owed_unborn h]; rfl
      | _ => rfl
    have h6 : owed { k with wq := q, ctl := j.effect k.ctl, own := if j.sync then k.own ++ [t] else k.own } =
        tot owedW q.pcs + sumTo (fun i => tot owedS (k.sq i).pcs) (j.effect k.ctl).n := rfl
    rw [h6, h5]
    unfold owed
    refine ⟨by omega, fun hj => ?_⟩
    rw [hj] at h4
    simp only [Bool.false_eq_true, if_false] at h4
    omega

theorem nomore_wq {q : QState (KTask M)} {l : QLabel (KTask M)} {hd : Option (KTask M)} (hq : qStep k.wq l = some q) (hc : ∀ t op, l ≠ .call t op) :
    NoMore k { k with wq := q, hand := hd } :=
  ⟨rfl, (tot_early early_owedW hq hc).1, fun _ => Nat.le_refl _, rfl, rfl, rfl⟩

/-- Steps inside the worker's queue. -/
theorem owed_mem (h : KInv n k) {l : QLabel (KTask M)} (e : k.mem l = some k') (hr : k'.race = false) (hr0 : k.race = false) :
    owed k' ≤ owed k ∧ ∀ v, lin k (.mem l) = some v → owed k' < owed k := by
  have plain : ∀ {q : QState (KTask M)}, qStep k.wq l = some q → (∀ t op, l ≠ .call t op) → lin k (.mem l) = none → k' = { k with wq := q } →
      owed k' ≤ owed k ∧ ∀ v, lin k (.mem l) = some v → owed k' < owed k := by
    intro q hq hc hl hk
    subst hk
    exact ⟨(nomore_wq hq hc).le, fun v hv => by rw [hl] at hv; cases hv⟩
  cases l with
  | call t op => cases e
  | act t =>
    simp only [KState.mem] at e
    split at e
    · next j hj =>
      obtain ⟨h1, h2⟩ := owed_put h hj e hr hr0
      refine ⟨h1, fun v hv => h2 ?_⟩
      simp only [lin, hj, entering] at hv
      cases j <;> first | rfl | cases hv
    · next hx =>
      obtain ⟨q, hq, e⟩ := Option.map_eq_some_iff.1 e
      refine plain hq (fun _ _ e => by cases e) ?_ e.symm
      simp only [lin]
      unfold entering
      split
      · next j hj => exact absurd hj (hx j)
      · rfl
  | unlock t =>
    simp only [KState.mem] at e
    split at e
    · obtain ⟨q, hq, rfl⟩ := Option.map_eq_some_iff.1 e
      exact ⟨(nomore_wq hq (fun _ _ e => by cases e)).le, fun v hv => by cases hv⟩
    · obtain ⟨q, hq, e⟩ := Option.map_eq_some_iff.1 e
      exact plain hq (fun _ _ e => by cases e) rfl e.symm
  | lock t | notify t u | spurious t =>
    obtain ⟨q, hq, e⟩ := Option.map_eq_some_iff.1 e
    exact plain hq (fun _ _ e => by cases e) rfl e.symm

theorem nomore_sq {i : Nat} {q : QState (SItem M)} {l : QLabel (SItem M)} {c : WState M} (hn : c.n = k.ctl.n) (hu : c.ub = k.ctl.ub) (hq : qStep (k.sq i) l = some q) (hc : ∀ t op, l ≠ .call t op) :
    NoMore k { k with sq := updQ k.sq i q, ctl := c } := by
  refine ⟨hn, Nat.le_refl _, fun j => ?_, rfl, rfl, hu⟩
  show tot owedS (updQ k.sq i q j).pcs ≤ _
  by_cases hj : j = i
  · subst hj; rw [updQ_self]; exact (tot_early early_owedS hq hc).1
  · rw [updQ_ne _ _ hj]; exact Nat.le_refl _

/-- Steps inside the queue of a sink. -/
theorem owed_smem (h : KInv n k) {i : Nat} {l : QLabel (SItem M)} (e : k.smem i l = some k') :
    owed k' ≤ owed k ∧ ∀ v, lin k (.smem i l) = some v → internal (abs k) v ∨ owed k' < owed k := by
  have plain : ∀ {q : QState (SItem M)}, qStep (k.sq i) l = some q → (∀ t op, l ≠ .call t op) → lin k (.smem i l) = none → k' = { k with sq := updQ k.sq i q } →
      owed k' ≤ owed k ∧ ∀ v, lin k (.smem i l) = some v → internal (abs k) v ∨ owed k' < owed k := by
    intro q hq hc hl hk
    subst hk
    exact ⟨(nomore_sq rfl rfl hq hc).le, fun v hv => by rw [hl] at hv; cases hv⟩
  cases l with
  | call t op => cases e
  | act t =>
    simp only [KState.smem] at e
    split at e
    · next x hx =>
      obtain ⟨q, hq, rfl⟩ := Option.map_eq_some_iff.1 e
      refine ⟨(nomore_sq (by split <;> rfl) (by split <;> rfl) hq (fun _ _ e => by cases e)).le, fun v hv => ?_⟩
      simp only [lin, hx] at hv
      cases x with
      | stop => cases hv
      | call c =>
        right
        have h1 := (tot_early early_owedS hq (fun _ _ e => by cases e)).2 t _ rfl hx
        have h2 : owedS (.crit (.push (.call c : SItem M))) = 1 := rfl
        have h3 := sumTo_change (f := fun i => tot owedS (k.sq i).pcs) (g := fun j => tot owedS (updQ k.sq i q j).pcs) (i := i) k.ctl.n (h.sni _ _ _ hx rfl).lt
          (fun j hj => by simp only [updQ_ne _ _ hj])
        simp only [updQ_self] at h3
        have h4 : ∀ b : Prop, [Decidable b] → (if b then sentOne k.ctl else k.ctl).n = k.ctl.n := by intro b _; split <;> rfl
        unfold owed
        simp only [h4]
        omega
      | _ =>
        left
        simp only [enteringSink] at hv
        split at hv
        · cases hv; trivial
        · cases hv
    · next hx =>
      obtain ⟨q, hq, e⟩ := Option.map_eq_some_iff.1 e
      refine plain hq (fun _ _ e => by cases e) ?_ e.symm
      simp only [lin]
      unfold enteringSink
      split
      · rfl
      · next hj => exact absurd hj (hx _)
      · next hj => exact absurd hj (hx _)
      · rfl
  | unlock t =>
    simp only [KState.smem] at e
    split at e
    · next x hx =>
      obtain ⟨q, hq, rfl⟩ := Option.map_eq_some_iff.1 e
      refine ⟨(nomore_sq rfl rfl hq (fun _ _ e => by cases e)).le, fun v hv => Or.inl ?_⟩
      simp only [lin, leavingSink, hx] at hv
      cases hv; trivial
    · next hx =>
      obtain ⟨q, hq, e⟩ := Option.map_eq_some_iff.1 e
      refine plain hq (fun _ _ e => by cases e) ?_ e.symm
      simp only [lin]
      unfold leavingSink
      split
      · next hj => exact absurd hj (hx _)
      · rfl
  | lock t | notify t u | spurious t =>
    obtain ⟨q, hq, e⟩ := Option.map_eq_some_iff.1 e
    exact plain hq (fun _ _ e => by cases e) rfl e.symm

theorem owed_step (h : KInv n k) (A : AllInv (abs k)) {l : KLabel M} (hi : kInternal k l) (hs : kStep k l = some k') (hr : k'.race = false) (hf : k'.uaf = false) :
    owed k' ≤ owed k ∧ ∀ v, lin k l = some v → internal (abs k) v ∨ owed k' < owed k := by
  have hr0 := (kStep_sane hs).2.2.1
  unfold kStep at hs
  split at hs
  · cases hs
  cases l with
  | thr t w =>
    obtain ⟨h1, h2⟩ := owed_thr A hi hs
    exact ⟨h1.le, fun v hv => Or.inl (h2 v hv)⟩
  | pop =>
    simp only at hs
    split at hs
    · obtain ⟨q, hq, rfl⟩ := Option.map_eq_some_iff.1 hs
      obtain ⟨h1, h2⟩ := call_pcs hq
      refine ⟨NoMore.le ⟨rfl, ?_, fun _ => Nat.le_refl _, rfl, rfl, rfl⟩, fun v hv => by cases hv⟩
      show tot owedW q.pcs ≤ _
      rw [h2]
      have := tot_set owedW _ _ _ (.want .waitPop) h1
      have h3 : owedW (.want .waitPop : QPc (KTask M)) = 0 := rfl
      rw [h3] at this
      omega
    · cases hs
  | mem l =>
    simp only at hs
    split at hs
    · obtain ⟨_, _, rfl⟩ := Option.map_eq_some_iff.1 hs; cases hr
    · obtain ⟨h1, h2⟩ := owed_mem h hs hr hr0
      exact ⟨h1, fun v hv => Or.inr (h2 v hv)⟩
  | smem i l =>
    simp only at hs
    split at hs
    · obtain ⟨_, _, rfl⟩ := Option.map_eq_some_iff.1 hs; cases hf
    · exact owed_smem h hs

/-! ### Steps that stand for nothing -/

/-- The worker thread has begun to push a message there. -/
def beganSend (p : Option (QPc (SItem M))) : Bool := match p.bind earlyPc with | some x => !x.isStop | none => false

/-- The worker thread has not begun the next push of a message. -/
def sendLeft (k : KState M) : Nat :=
  match k.ctl.wpc with
  | .sending _ (i :: _) => bif beganSend (k.sq i).pcs[1]? then 0 else 8
  | _ => 0

/-- What is left to do inside the queues. -/
def micro (k : KState M) : Nat :=
  tot pcCostQ k.wq.pcs + (if k.hand.isNone then rest0 k.wq else 0) + sumTo (fun i => tot pcCostQ (k.sq i).pcs + rest0 (k.sq i)) k.ctl.n + sendLeft k

theorem began_step {s s' : QState (SItem M)} {l : QLabel (SItem M)} (h : qStep s l = some s') (hc : ∀ t op, l ≠ .call t op)
    (ha : ∀ x, l = .act 1 → s.pcs[(1 : Nat)]? = some (.crit (.push x)) → x.isStop = true) : beganSend s'.pcs[(1 : Nat)]? = beganSend s.pcs[(1 : Nat)]? := by
  have m := qturn h hc
  generalize s'.pcs = ps at m ⊢
  have set1 : ∀ {t : Nat} {p p' : QPc (SItem M)}, s.pcs[t]? = some p → (t = 1 → beganSend (some p') = beganSend (some p)) →
      beganSend (s.pcs.set t p')[(1 : Nat)]? = beganSend s.pcs[(1 : Nat)]? := by
    intro t p p' hp hx
    by_cases ht : t = 1
    · subst ht
      rw [List.getElem?_set_self (lt_of_pc hp), hp]
      exact hx rfl
    · rw [List.getElem?_set_ne ht]
  cases m with
  | @lockWant t op hp => exact set1 hp (fun _ => by cases op <;> rfl)
  | lockWoken hp => exact set1 hp (fun _ => rfl)
  | @actPush t x hp =>
    refine set1 hp (fun e => ?_)
    subst e
    have := ha x rfl hp
    simp [beganSend, earlyPc, this]
  | @actOther t op r hp ho => exact set1 hp (fun _ => by cases op <;> first | rfl | exact absurd rfl (ho _))
  | @actWait t op hp ho => exact set1 hp (fun _ => by cases op <;> first | rfl | exact absurd rfl (ho _))
  | unlockPush hp => exact set1 hp (fun _ => rfl)
  | unlockOther hp ho => exact set1 hp (fun _ => rfl)
  | notifyNone hp => exact set1 hp (fun _ => rfl)
  | @notifyOne t u hp hu =>
    have hne := ne_of_pcs hp hu (by simp)
    have hu' : (s.pcs.set t .idle)[u]? = some .waiting := by rw [List.getElem?_set_ne hne]; exact hu
    by_cases h1 : u = 1
    · subst h1
      rw [List.getElem?_set_self (lt_of_pc hu'), hu]
      rfl
    · rw [List.getElem?_set_ne h1]
      exact set1 hp (fun _ => rfl)
  | spurious hp => exact set1 hp (fun _ => rfl)

/-- A step inside the worker's queue. -/
theorem micro_wq (h : KInv n k) {l : QLabel (KTask M)} {q : QState (KTask M)} {o : List Nat} (hq : qStep k.wq l = some q) (hc : ∀ t op, l ≠ .call t op) (hs : ∀ t, l ≠ .spurious t)
    (hu : ∀ (t : Nat) x, l = .unlock t → k.wq.pcs[t]? ≠ some (.fin .waitPop (.item x))) : micro { k with wq := q, own := o } < micro k := by
  have h1 := cost_step hq hc hs
  have h2 := rest_step h.wq hq hc hu
  have h3 : sendLeft { k with wq := q, own := o } = sendLeft k := rfl
  unfold micro
  rw [h3]
  simp only
  split <;> omega

theorem micro_sq (h : KInv n k) {i : Nat} {l : QLabel (SItem M)} {q : QState (SItem M)} (hi : i < k.ctl.n) (hq : qStep (k.sq i) l = some q) (hc : ∀ t op, l ≠ .call t op)
    (hs : ∀ t, l ≠ .spurious t) (hu : ∀ (t : Nat) x, l = .unlock t → (k.sq i).pcs[t]? ≠ some (.fin .waitPop (.item x)))
    (ha : ∀ x, l = .act 1 → (k.sq i).pcs[(1 : Nat)]? = some (.crit (.push x)) → x.isStop = true) : micro { k with sq := updQ k.sq i q } < micro k := by
  have h1 := cost_step hq hc hs
  have h2 := rest_step (h.sq i) hq hc hu
  have h3 := sumTo_change (f := fun i => tot pcCostQ (k.sq i).pcs + rest0 (k.sq i)) (g := fun j => tot pcCostQ (updQ k.sq i q j).pcs + rest0 (updQ k.sq i q j)) (i := i) k.ctl.n hi
    (fun j hj => by simp only [updQ_ne _ _ hj])
  simp only [updQ_self] at h3
  have h4 : sendLeft { k with sq := updQ k.sq i q } = sendLeft k := by
    unfold sendLeft
    simp only
    split
    · next x j r hw =>
      by_cases hj : j = i
      · subst hj; rw [updQ_self, began_step hq hc ha]
      · rw [updQ_ne _ _ hj]
    · rfl
  unfold micro
  rw [h4]
  simp only
  omega

theorem micro_work (A : AllInv (abs k)) (e : k.work = some k') (hl : working k.hand k.ctl.wpc = none) : micro k' < micro k := by
  unfold KState.work at e
  split at e
  · cases e
  unfold working at hl
  split at hl
  · next x i r hh hw =>
    simp only [hh, hw] at e
    obtain ⟨q, hq, rfl⟩ := Option.map_eq_some_iff.1 e
    obtain ⟨h1, h2⟩ := call_pcs hq
    have hx : x.isStop = false := by
      have ht := A.w.book.task
      rw [show (abs k).wpc = _ from hw] at ht
      cases x <;> first | rfl | exact ht.elim
    have s0 : sendLeft k = 8 := by
      unfold sendLeft
      rw [hw]
      simp only [h1]
      rfl
    have s1 : sendLeft { k with sq := updQ k.sq i q } = 0 := by
      unfold sendLeft
      simp only [hw, updQ_self, h2]
      rw [List.getElem?_set_self (lt_of_pc h1)]
      simp [beganSend, earlyPc, hx]
    have c1 := tot_set pcCostQ _ _ _ (.want (.push x)) h1
    have c2 : rest0 q = rest0 (k.sq i) := rest_set_ne (by omega) h2
    simp only [pcCostQ] at c1
    rw [← h2] at c1
    have c3 : sumTo (fun j => tot pcCostQ (updQ k.sq i q j).pcs + rest0 (updQ k.sq i q j)) k.ctl.n ≤ sumTo (fun i => tot pcCostQ (k.sq i).pcs + rest0 (k.sq i)) k.ctl.n + 7 := by
      by_cases hi : i < k.ctl.n
      · have h3 := sumTo_change (f := fun i => tot pcCostQ (k.sq i).pcs + rest0 (k.sq i)) (g := fun j => tot pcCostQ (updQ k.sq i q j).pcs + rest0 (updQ k.sq i q j)) (i := i) k.ctl.n hi
          (fun j hj => by simp only [updQ_ne _ _ hj])
        simp only [updQ_self] at h3
        omega
      · rw [sumTo_congr (f := fun j => tot pcCostQ (updQ k.sq i q j).pcs + rest0 (updQ k.sq i q j)) (g := fun i => tot pcCostQ (k.sq i).pcs + rest0 (k.sq i)) k.ctl.n
          (fun j hj => by simp only [updQ_ne k.sq q (show j ≠ i by omega)])]
        omega
    unfold micro
    rw [s0, s1]
    simp only
    omega
  · cases hl

/-- A step that stands for nothing. -/
theorem micro_step (h : KInv n k) (A : AllInv (abs k)) {l : KLabel M} (hi : kInternal k l) (hs : kStep k l = some k') (hr : k'.race = false) (hf : k'.uaf = false)
    (hl : lin k l = none) : micro k' < micro k := by
  unfold kStep at hs
  split at hs
  · cases hs
  cases l with
  | thr t w =>
    simp only at hs
    cases w with
    | work => exact micro_work A hs hl
    | sinkPop i =>
      simp only [KState.act] at hs
      split at hs
      · next hc =>
        obtain ⟨q, hq, rfl⟩ := Option.map_eq_some_iff.1 hs
        obtain ⟨h1, h2⟩ := call_pcs hq
        have c1 := tot_set pcCostQ _ _ _ (.want .waitPop) h1
        simp only [pcCostQ] at c1
        rw [← h2] at c1
        have c2 : rest0 (k.sq i) = 4 := by unfold rest0; rw [h1]
        have c3 : rest0 q = 0 := rest_busy (p := .want .waitPop) (by rw [h2]; exact List.getElem?_set_self (lt_of_pc h1)) (by simp)
        have h3 := sumTo_change (f := fun i => tot pcCostQ (k.sq i).pcs + rest0 (k.sq i)) (g := fun j => tot pcCostQ (updQ k.sq i q j).pcs + rest0 (updQ k.sq i q j)) (i := i) k.ctl.n hc.1
          (fun j hj => by simp only [updQ_ne _ _ hj])
        simp only [updQ_self] at h3
        have h4 : sendLeft { k with sq := updQ k.sq i q } = sendLeft k := by
          unfold sendLeft
          simp only
          split
          · next x j r hw =>
            by_cases hj : j = i
            · subst hj; rw [updQ_self, h2, List.getElem?_set_ne (by omega)]
            · rw [updQ_ne _ _ hj]
          · rfl
        unfold micro
        rw [h4]
        simp only
        omega
      · cases hs
    | dtor =>
      simp only [lin] at hl
      rw [if_neg (by rw [show k.dthr = some t from hi]; simp)] at hl
      cases hl
    | ret c => cases hl
    | reap i => cases hl
    | sinkFin i => cases hl
    | save m => exact hi.elim
    | fatal m => exact hi.elim
    | add => exact hi.elim
    | remove i => exact hi.elim
    | clear => exact hi.elim
    | hold i => exact hi.elim
    | holdFail i c => exact hi.elim
    | call i c => exact hi.elim
    | release i => exact hi.elim
    | sinkFatal i m => exact hi.elim
  | pop =>
    simp only at hs
    split at hs
    · next hw hh =>
      obtain ⟨q, hq, rfl⟩ := Option.map_eq_some_iff.1 hs
      obtain ⟨h1, h2⟩ := call_pcs hq
      have c1 := tot_set pcCostQ _ _ _ (.want .waitPop) h1
      simp only [pcCostQ] at c1
      rw [← h2] at c1
      have c2 : rest0 k.wq = 4 := by unfold rest0; rw [h1]
      have c3 : rest0 q = 0 := rest_busy (p := .want .waitPop) (by rw [h2]; exact List.getElem?_set_self (lt_of_pc h1)) (by simp)
      have h4 : sendLeft { k with wq := q } = sendLeft k := rfl
      unfold micro
      rw [h4]
      simp only [hh, Option.isNone_none, if_true]
      omega
    · cases hs
  | mem l =>
    simp only at hs
    split at hs
    · obtain ⟨_, _, rfl⟩ := Option.map_eq_some_iff.1 hs; cases hr
    cases l with
    | call t op => cases hs
    | spurious t => exact hi.elim
    | act t =>
      simp only [KState.mem] at hs
      split at hs
      · next j hj =>
        simp only [lin, hj, entering] at hl
        have hd : j = .done := by cases j <;> first | rfl | cases hl
        subst hd
        unfold KState.put at hs
        split at hs
        · cases hs; cases hr
        · obtain ⟨q, hq, rfl⟩ := Option.map_eq_some_iff.1 hs
          exact micro_wq h hq (fun _ _ e => by cases e) (fun _ e => by cases e) (fun _ _ e => by cases e)
      · obtain ⟨q, hq, rfl⟩ := Option.map_eq_some_iff.1 hs
        exact micro_wq h hq (fun _ _ e => by cases e) (fun _ e => by cases e) (fun _ _ e => by cases e)
    | unlock t =>
      simp only [KState.mem] at hs
      split at hs
      · next x hx =>
        obtain ⟨q, hq, rfl⟩ := Option.map_eq_some_iff.1 hs
        have h1 := cost_step hq (fun _ _ e => by cases e) (fun _ e => by cases e)
        have h4 : sendLeft { k with wq := q, hand := some x } = sendLeft k := rfl
        unfold micro
        rw [h4]
        simp only [Option.isNone_some, Bool.false_eq_true, if_false]
        omega
      · next hx =>
        obtain ⟨q, hq, rfl⟩ := Option.map_eq_some_iff.1 hs
        exact micro_wq h hq (fun _ _ e => by cases e) (fun _ e => by cases e) (fun u x e => by injection e with e; subst e; exact hx x)
    | lock t | notify t u =>
      obtain ⟨q, hq, rfl⟩ := Option.map_eq_some_iff.1 hs
      exact micro_wq h hq (fun _ _ e => by cases e) (fun _ e => by cases e) (fun _ _ e => by cases e)
  | smem i l =>
    simp only at hs
    split at hs
    · obtain ⟨_, _, rfl⟩ := Option.map_eq_some_iff.1 hs; cases hf
    have lt : ∀ {t : Nat} {pc : QPc (SItem M)}, (k.sq i).pcs[t]? = some pc → pc.isIdle = false → i < k.ctl.n := fun a b => (h.sni _ _ _ a b).lt
    have lt' : ∀ {l : QLabel (SItem M)} {q : QState (SItem M)}, qStep (k.sq i) l = some q → (∀ t op, l ≠ .call t op) → i < k.ctl.n := by
      intro l q hq hc
      have m := qturn hq hc
      generalize q.pcs = ps at m
      cases m with
      | lockWant hp => exact lt hp rfl
      | lockWoken hp => exact lt hp rfl
      | actPush hp => exact lt hp rfl
      | actOther hp _ => exact lt hp rfl
      | actWait hp _ => exact lt hp rfl
      | unlockPush hp => exact lt hp rfl
      | unlockOther hp _ => exact lt hp rfl
      | notifyNone hp => exact lt hp rfl
      | notifyOne hp _ => exact lt hp rfl
      | spurious hp => exact lt hp rfl
    cases l with
    | call t op => cases hs
    | spurious t => exact hi.elim
    | act t =>
      simp only [KState.smem] at hs
      split at hs
      · next x hx =>
        obtain ⟨q, hq, rfl⟩ := Option.map_eq_some_iff.1 hs
        simp only [lin, hx] at hl
        have hst : t = 1 → x.isStop = true := by
          intro e
          subst e
          cases x <;> first | rfl | cases hl
        rw [if_neg (by rintro ⟨a, b⟩; rw [hst a] at b; cases b)]
        exact micro_sq h (lt' hq (fun _ _ e => by cases e)) hq (fun _ _ e => by cases e) (fun _ e => by cases e) (fun _ _ e => by cases e)
          (fun y e hy => by
            injection e with e
            rw [e] at hx hst
            rw [hx] at hy; injection hy with hy; injection hy with hy; injection hy with hy
            rw [← hy]; exact hst rfl)
      · next hx =>
        obtain ⟨q, hq, rfl⟩ := Option.map_eq_some_iff.1 hs
        exact micro_sq h (lt' hq (fun _ _ e => by cases e)) hq (fun _ _ e => by cases e) (fun _ e => by cases e) (fun _ _ e => by cases e)
          (fun y e hy => by injection e with e; rw [← e] at hy; exact absurd hy (hx y))
    | unlock t =>
      simp only [KState.smem] at hs
      split at hs
      · next x hx => simp only [lin, hx, leavingSink] at hl; cases hl
      · next hx =>
        obtain ⟨q, hq, rfl⟩ := Option.map_eq_some_iff.1 hs
        exact micro_sq h (lt' hq (fun _ _ e => by cases e)) hq (fun _ _ e => by cases e) (fun _ e => by cases e) (fun u x e => by injection e with e; subst e; exact hx x)
          (fun _ e => by cases e)
    | lock t | notify t u =>
      obtain ⟨q, hq, rfl⟩ := Option.map_eq_some_iff.1 hs
      exact micro_sq h (lt' hq (fun _ _ e => by cases e)) hq (fun _ _ e => by cases e) (fun _ e => by cases e) (fun _ _ e => by cases e) (fun _ e => by cases e)

/-! ### The end -/

/-- What never is the case after a step that another one follows. -/
structure Going (n : Nat) (k : KState M) : Prop where
  inv : KInv n k
  all : AllInv (abs k)

theorem going_run {ls : List (KLabel M)} (h : kRun (KState.start n) ls = some k) (hr : k.race = false) : Going n k :=
  ⟨(sim_run h hr).1, allInv_run (sim_runs h hr).2⟩

theorem going_step (h : Going n k) {l : KLabel M} (hs : kStep k l = some k') (hr : k'.race = false) : Going n k' ∧ SimTo n k k' (lin k l) := by
  have s := sim_step h.inv h.all hs hr
  refine ⟨?_, s⟩
  cases hl : lin k l with
  | none => rw [hl] at s; exact ⟨s.1, by rw [s.2]; exact h.all⟩
  | some v => rw [hl] at s; exact ⟨s.1, allInv_step h.all s.2⟩

/-- Another step is possible without new input. -/
def Follows (k' k : KState M) : Prop := ∃ l, kInternal k l ∧ kStep k l = some k'

theorem acc_race (hr : k.race = true) : Acc Follows k := by
  refine ⟨_, fun k' ⟨l, _, hs⟩ => ?_⟩
  have := (kStep_sane hs).2.2.1
  rw [hr] at this; cases this

theorem acc_follows : ∀ (o w m : Nat) (k : KState M), Going n k → owed k = o → work (abs k) = w → micro k = m → Acc Follows k := by
  intro o
  induction o using Nat.strongRecOn with
  | ind o iho =>
  intro w
  induction w using Nat.strongRecOn with
  | ind w ihw =>
  intro m
  induction m using Nat.strongRecOn with
  | ind m ihm =>
  intro k g ho hw hm
  refine ⟨_, fun k' ⟨l, hi, hs⟩ => ?_⟩
  by_cases hr : k'.race = true
  · exact acc_race hr
  · rw [Bool.not_eq_true] at hr
    obtain ⟨g', sim⟩ := going_step g hs hr
    have hf : k'.uaf = false := g'.inv.uaf
    obtain ⟨h1, h2⟩ := owed_step g.inv g.all hi hs hr hf
    by_cases hlt : owed k' < owed k
    · exact iho (owed k') (by omega) _ _ k' g' rfl rfl rfl
    · have he : owed k' = o := by omega
      cases hl : lin k l with
      | none =>
        rw [hl] at sim
        have := micro_step g.inv g.all hi hs hr hf hl
        exact ihm (micro k') (by omega) k' g' he (by rw [sim.2]; exact hw) rfl
      | some v =>
        rw [hl] at sim
        have hin := (h2 v hl).resolve_right hlt
        have := work_decreases g.all hin sim.2
        exact ihw (work (abs k')) (by omega) _ k' g' he rfl rfl

/-- C93: whatever threads are doing, without new input and without wake-ups without reason the worker comes to rest: there is no infinite sequence of steps. -/
theorem C93_terminates {ls : List (KLabel M)} (h : kRun (KState.start n) ls = some k) (f : Nat → KState M) (h0 : f 0 = k)
    (hf : ∀ j, ∃ l, kInternal (f j) l ∧ kStep (f j) l = some (f (j + 1))) : False := by
  have hacc : Acc Follows k := by
    by_cases hr : k.race = true
    · exact acc_race hr
    · rw [Bool.not_eq_true] at hr
      exact acc_follows _ _ _ k (going_run h hr) rfl rfl rfl
  have main : ∀ k : KState M, Acc Follows k → ∀ j, f j = k → False := by
    intro k ha
    induction ha with
    | intro k _ ih =>
      intro j hj
      have := hf j
      rw [hj] at this
      exact ih (f (j + 1)) this (j + 1) rfl
  exact main k hacc 0 h0

/-- A run of such steps. -/
inductive KRun : KState M → List (KLabel M) → KState M → Prop
  | nil (a : KState M) : KRun a [] a
  | cons {a b c : KState M} {l : KLabel M} {ls : List (KLabel M)} : kInternal a l → kStep a l = some b → KRun b ls c → KRun a (l :: ls) c

theorem krun_run {ls : List (KLabel M)} {k k' : KState M} (h : KRun k ls k') : kRun k ls = some k' := by
  induction h with
  | nil k => rfl
  | cons _ hs _ ih => simp only [kRun, hs, Option.bind_some]; exact ih

theorem kRun_join {a b : List (KLabel M)} {k u v : KState M} (h1 : kRun k a = some u) (h2 : kRun u b = some v) : kRun k (a ++ b) = some v := by
  induction a generalizing k with
  | nil => cases h1; exact h2
  | cons l a ih =>
    simp only [kRun, List.cons_append] at h1 ⊢
    cases hs : kStep k l with
    | none => rw [hs] at h1; cases h1
    | some w => rw [hs] at h1; simp only [Option.bind_some] at h1 ⊢; exact ih h1

/-- C93: from every state the worker comes to rest. -/
theorem C93_rests {ls : List (KLabel M)} (h : kRun (KState.start n) ls = some k) : ∃ ms k', KRun k ms k' ∧ kStuck k' := by
  have hacc : Acc Follows k := by
    by_cases hr : k.race = true
    · exact acc_race hr
    · rw [Bool.not_eq_true] at hr
      exact acc_follows _ _ _ k (going_run h hr) rfl rfl rfl
  clear h
  induction hacc with
  | intro k _ ih =>
    by_cases hs : kStuck k
    · exact ⟨[], k, .nil k, hs⟩
    · unfold kStuck at hs
      rw [Classical.not_forall] at hs
      obtain ⟨l, hs⟩ := hs
      rw [Classical.not_imp] at hs
      obtain ⟨hi, hn⟩ := hs
      obtain ⟨u, hu⟩ := Option.ne_none_iff_exists'.1 hn
      obtain ⟨ms, k', hr, hk⟩ := ih u ⟨l, hi, hu⟩
      exact ⟨l :: ms, k', .cons hi hu hr, hk⟩

/-- While nobody destroys the worker. -/
theorem alive_step (h : KInv n k) (A : AllInv (abs k)) {l : KLabel M} (hi : kInternal k l) (hs : kStep k l = some k') (hd : k.dthr = none) :
    k'.dthr = none ∧ k'.race = false ∧ k'.ctl.ub = false := by
  obtain ⟨hu0, _, hr0, _⟩ := kStep_sane hs
  have hb : k.ctl.phase = .notStarted := h.dthr hd
  have fin : NoMore k k' → k'.dthr = none ∧ k'.race = false ∧ k'.ctl.ub = false := fun m => ⟨m.d.trans hd, m.r.trans hr0, m.u.trans hu0⟩
  unfold kStep at hs
  split at hs
  · cases hs
  cases l with
  | thr t w => exact fin (owed_thr A hi hs).1
  | pop =>
    simp only at hs
    split at hs
    · obtain ⟨q, hq, rfl⟩ := Option.map_eq_some_iff.1 hs
      exact ⟨hd, hr0, hu0⟩
    · cases hs
  | mem l =>
    simp only [hb, DPhase.queueGone, Bool.false_eq_true, if_false] at hs
    cases l with
    | call t op => cases hs
    | act t =>
      simp only [KState.mem] at hs
      split at hs
      · next j hj =>
        unfold KState.put at hs
        rw [if_neg (by rw [hb]; simp [DPhase.bgNull])] at hs
        obtain ⟨q, hq, rfl⟩ := Option.map_eq_some_iff.1 hs
        exact ⟨hd, hr0, by cases j <;> exact hu0⟩
      · obtain ⟨q, hq, rfl⟩ := Option.map_eq_some_iff.1 hs; exact ⟨hd, hr0, hu0⟩
    | unlock t =>
      simp only [KState.mem] at hs
      split at hs <;> (obtain ⟨q, hq, rfl⟩ := Option.map_eq_some_iff.1 hs; exact ⟨hd, hr0, hu0⟩)
    | lock t | notify t u | spurious t => obtain ⟨q, hq, rfl⟩ := Option.map_eq_some_iff.1 hs; exact ⟨hd, hr0, hu0⟩
  | smem i l =>
    simp only at hs
    split at hs
    · obtain ⟨_, _, rfl⟩ := Option.map_eq_some_iff.1 hs; exact ⟨hd, hr0, hu0⟩
    cases l with
    | call t op => cases hs
    | act t =>
      simp only [KState.smem] at hs
      split at hs
      · obtain ⟨q, hq, rfl⟩ := Option.map_eq_some_iff.1 hs
        exact ⟨hd, hr0, by show (if _ then sentOne k.ctl else k.ctl).ub = false; split <;> exact hu0⟩
      · obtain ⟨q, hq, rfl⟩ := Option.map_eq_some_iff.1 hs; exact ⟨hd, hr0, hu0⟩
    | unlock t =>
      simp only [KState.smem] at hs
      split at hs <;> (obtain ⟨q, hq, rfl⟩ := Option.map_eq_some_iff.1 hs; exact ⟨hd, hr0, hu0⟩)
    | lock t | notify t u | spurious t => obtain ⟨q, hq, rfl⟩ := Option.map_eq_some_iff.1 hs; exact ⟨hd, hr0, hu0⟩

theorem alive_run {ms : List (KLabel M)} {k k' : KState M} (h : KRun k ms k') : Going n k → k.dthr = none → k.race = false → k.ctl.ub = false →
    k'.dthr = none ∧ k'.race = false ∧ k'.ctl.ub = false := by
  induction h with
  | nil a => intro _ hd hr hu; exact ⟨hd, hr, hu⟩
  | cons hi hs _ ih =>
    intro g hd _ _
    obtain ⟨h1, h2, h3⟩ := alive_step g.inv g.all hi hs hd
    exact ih (going_step g hs h2).1 h1 h2 h3

/-- C93: as long as nobody destroys the worker, everything that was handed over, and everything whose hand-over has begun, is delivered: however the threads run
without new input, they come to rest, and then, unless a fatal event has ended the process or holds up the thread of a sink, every sink has got what the hand-overs before say,
all queues are empty and all calls have returned. -/
theorem C93_delivers {ls : List (KLabel M)} (hn : 2 ≤ n) (h : kRun (KState.start n) ls = some k) (hd : k.dthr = none) (hu : k.ctl.ub = false) (hr : k.race = false) :
    (∃ ms k', KRun k ms k' ∧ kStuck k') ∧
    ∀ ms k', KRun k ms k' → kStuck k' → k'.ctl.wpc = .dead ∨ (∃ i, (k'.ctl.sk i).blocked = true) ∨
      ((∀ i, received (k'.ctl.sk i) = gets i (k'.ctl.sub.map req)) ∧ k'.wq.q = [] ∧ k'.hand = none ∧
       (∀ i, i < k'.ctl.n → (k'.sq i).q = [] ∧ (k'.ctl.sk i).running = none) ∧ (∀ c ∈ k'.ctl.calls, c.returned = true)) := by
  refine ⟨C93_rests h, fun ms k' hm hs => ?_⟩
  obtain ⟨_, h2, h3⟩ := alive_run hm (going_run h hr) hd hr hu
  have hrun : kRun (KState.start n) (ls ++ ms) = some k' := kRun_join h (krun_run hm)
  by_cases hdead : k'.ctl.wpc = .dead
  · exact Or.inl hdead
  · by_cases hb : ∃ i, (k'.ctl.sk i).blocked = true
    · exact Or.inr (Or.inl hb)
    · right; right
      obtain ⟨a, b, c, d, _, _, e, _⟩ := C93_drains hn hrun h2 h3 hdead (fun i => by
        cases hx : (k'.ctl.sk i).blocked with
        | false => rfl
        | true => exact absurd ⟨i, hx⟩ hb) hs
      exact ⟨a, b, c, d, e⟩

example : enteringSink 3 1 (some (.crit (.push (.msg 5)))) = some (WLabel.work (M := Nat)) ∧ enteringSink 3 2 (some (.crit (.push (.msg 5)))) = none ∧
    enteringSink 3 1 (some (.crit (.push (.fatal 5)))) = some (WLabel.work (M := Nat)) ∧ enteringSink 3 2 (some (.crit (.push (.fatal 5)))) = none ∧
    enteringSink 3 1 (some (.crit (.push (.call 5)))) = some (WLabel.work (M := Nat)) ∧ enteringSink 3 2 (some (.crit (.push (.call 5)))) = some (WLabel.call (M := Nat) 3 5) ∧
    enteringSink 3 1 (some (.crit (.push .stop))) = none (α := WLabel Nat) := ⟨rfl, rfl, rfl, rfl, rfl, rfl, rfl⟩

end G3.Props
