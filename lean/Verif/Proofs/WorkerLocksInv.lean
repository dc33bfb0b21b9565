import Verif.Proofs.WorkerLocks
/-
Lemmas for Verif.Props.WorkerLocks: what threads inside the queues know about the rest.
-/
namespace G3.Props
open G3

variable {M : Type}

/-- The final task of the worker. -/
def isEnd : KTask M → Bool
  | .done => true
  | _ => false

theorem isEnd_eq (x : KTask M) (h : isEnd x = true) : x = .done := by cases x <;> first | rfl | cases h
theorem isStop_eq (x : SItem M) (h : x.isStop = true) : x = .stop := by cases x <;> first | rfl | cases h

/-- The queue of a sink as Verif.Model.Worker has it. -/
def sView (s : QState (SItem M)) : List (SItem M) := qView SItem.isStop .stop s

/-- The queue of the worker as Verif.Model.Worker has it. -/
def wView (k : KState M) : List (WTask M) := (k.hand.toList ++ qView isEnd .done k.wq).map KTask.task

/-- The state of Verif.Model.Worker. -/
def abs (k : KState M) : WState M := { k.ctl with wq := wView k, sk := fun i => { k.ctl.sk i with q := sView (k.sq i) } }

/-- A thread inside the queue of a sink. -/
structure NIs (c : WState M) (d : Option Nat) (i t : Nat) : Prop where
  lt : i < c.n
  des : (c.sk i).destroyed = false
  zero : t = 0 → (c.sk i).running = none ∧ (c.sk i).exited = false
  one : t = 1 → (∃ x r, c.wpc = .sending x r ∧ i ∈ c.att) ∨ c.wpc = .rmWait i ∨ ∃ f, c.wpc = .clrWait i f
  two : 2 ≤ t → 0 < (c.sk i).refs ∨ (c.sk i).reaping = true ∨ (c.phase = .waitSink i ∧ d = some t)

/-- A thread about to push into the queue of a sink. -/
structure Es (c : WState M) (i t : Nat) (x : SItem M) : Prop where
  stop : x.isStop = true → (c.sk i).stopSent = true ∧ (t = 1 → c.wpc = .rmWait i ∨ ∃ f, c.wpc = .clrWait i f)
  send : x.isStop = false → t = 1 → ∃ r, c.wpc = .sending x (i :: r)
  refs : x.isStop = false → 2 ≤ t → 0 < (c.sk i).refs
  call : x.isStop = false → 2 ≤ t → ∃ c, x = .call c

/-- A thread inside the worker's queue. -/
structure NIw (c : WState M) (hand : Option (KTask M)) (t : Nat) : Prop where
  zero : t = 0 → c.wpc = .idle ∧ hand = none
  one : t ≠ 1

/-- A task about to enter the worker's queue. -/
structure Ew (c : WState M) (d : Option Nat) (t : Nat) (x : KTask M) : Prop where
  remove : ∀ i, x = .remove i → i < c.n
  fatal : ∀ i m, x = .sinkFatal i m → i < c.n ∧ (c.sk i).blocked = false ∧ (c.sk i).running.any (fun y => !y.isStop) = true
  clear : x = .dtorClear → c.phase = .notStarted ∧ d = some t
  done : x = .done → c.phase = .stopping ∧ d = some t
  dtor : d = some t → x = .dtorClear ∨ x = .done

/-- The invariant. -/
structure KInv (n : Nat) (k : KState M) : Prop where
  wq : QOne n k.wq
  sq : ∀ i, QOne n (k.sq i)
  wni : ∀ (t : Nat) pc, k.wq.pcs[t]? = some pc → pc.isIdle = false → NIw k.ctl k.hand t
  we : ∀ (t : Nat) pc x, k.wq.pcs[t]? = some pc → earlyPc pc = some x → Ew k.ctl k.dthr t x
  uniq : ∀ (t u : Nat) pc pd i m o, k.wq.pcs[t]? = some pc → earlyPc pc = some (.sinkFatal i m) → k.wq.pcs[u]? = some pd → earlyPc pd = some (.sinkFatal i o) → t = u
  pend : ∀ (t : Nat), k.dthr = some t → k.ctl.phase = .notStarted → ∃ pc, k.wq.pcs[t]? = some pc ∧ earlyPc pc = some .dtorClear
  dthr : k.dthr = none → k.ctl.phase = .notStarted
  dtwo : ∀ t, k.dthr = some t → 2 ≤ t ∧ t < n
  hand : ∀ x, k.hand = some x → k.ctl.wpc = .idle
  sni : ∀ i (t : Nat) pc, (k.sq i).pcs[t]? = some pc → pc.isIdle = false → NIs k.ctl k.dthr i t
  se : ∀ i (t : Nat) pc x, (k.sq i).pcs[t]? = some pc → earlyPc pc = some x → Es k.ctl i t x
  fresh : ∀ i, k.ctl.n ≤ i → (k.sq i).q = []
  own : k.own.length = k.ctl.calls.length
  two : ∀ t ∈ k.own, 2 ≤ t ∧ t < n
  uaf : k.uaf = false

theorem early_busy {T : Type} {pc : QPc T} {x : T} (h : earlyPc pc = some x) : pc.isIdle = false := by
  cases pc <;> first | rfl | cases h

theorem idle_of {T : Type} {pc : QPc T} (h : pc.isIdle = true) : pc = .idle := by cases pc <;> first | rfl | cases h

theorem kinv_start (n : Nat) : KInv n (KState.start n : KState M) := by
  refine ⟨qone_start n, fun _ => qone_start n, ?_, ?_, ?_, ?_, fun _ => rfl, ?_, ?_, ?_, ?_, fun _ _ => rfl, rfl, ?_, rfl⟩
  · intro t pc h hc; rw [start_get h] at hc; cases hc
  · intro t pc x h hc; rw [start_get h] at hc; cases hc
  · intro t u pc pd i m o h hc; rw [start_get h] at hc; cases hc
  · intro t h; cases h
  · intro t h; cases h
  · intro t h; cases h
  · intro i t pc h hc; rw [start_get h] at hc; cases hc
  · intro i t pc x h hc; rw [start_get h] at hc; cases hc
  · intro t h; cases h

/-- The rest changes. -/
theorem kinv_ctl {n : Nat} {k : KState M} {c : WState M} (h : KInv n k)
    (a : ∀ i (t : Nat) pc, (k.sq i).pcs[t]? = some pc → pc.isIdle = false → NIs k.ctl k.dthr i t → NIs c k.dthr i t)
    (b : ∀ i (t : Nat) pc x, (k.sq i).pcs[t]? = some pc → earlyPc pc = some x → Es k.ctl i t x → NIs k.ctl k.dthr i t → Es c i t x)
    (d : ∀ (t : Nat) pc, k.wq.pcs[t]? = some pc → pc.isIdle = false → NIw k.ctl k.hand t → NIw c k.hand t)
    (e : ∀ (t : Nat) pc x, k.wq.pcs[t]? = some pc → earlyPc pc = some x → Ew k.ctl k.dthr t x → Ew c k.dthr t x)
    (f : ∀ x, k.hand = some x → k.ctl.wpc = .idle → c.wpc = .idle) (g : k.ctl.n ≤ c.n)
    (o : k.own.length = c.calls.length) (p : c.phase = .notStarted → k.ctl.phase = .notStarted) (q : k.dthr = none → c.phase = .notStarted) :
    KInv n { k with ctl := c } :=
  { wq := h.wq, sq := h.sq
    wni := fun t pc h1 h2 => d t pc h1 h2 (h.wni t pc h1 h2)
    we := fun t pc x h1 h2 => e t pc x h1 h2 (h.we t pc x h1 h2)
    uniq := h.uniq
    pend := fun t h1 h2 => h.pend t h1 (p h2)
    dthr := q
    dtwo := h.dtwo
    hand := fun x h1 => f x h1 (h.hand x h1)
    sni := fun i t pc h1 h2 => a i t pc h1 h2 (h.sni i t pc h1 h2)
    se := fun i t pc x h1 h2 => b i t pc x h1 h2 (h.se i t pc x h1 h2) (h.sni i t pc h1 (early_busy h2))
    fresh := fun i hi => h.fresh i (Nat.le_trans g hi)
    own := o, two := h.two, uaf := h.uaf }

/-- A step inside the worker's queue that is no call. -/
theorem kinv_mem {n : Nat} {k : KState M} {l : QLabel (KTask M)} {q : QState (KTask M)} (h : KInv n k) (hs : qStep k.wq l = some q)
    (hc : ∀ t op, l ≠ .call t op) (hp : ∀ (t : Nat) pc, k.dthr = some t → k.ctl.phase = .notStarted → l = .act t → k.wq.pcs[t]? = some pc → earlyPc pc ≠ some .dtorClear) :
    KInv n { k with wq := q } := by
  have hf := frame_mem hs hc
  refine { wq := qone_step h.wq ?_ hs, sq := h.sq, wni := ?_, we := ?_, uniq := ?_, pend := ?_, dthr := h.dthr, dtwo := h.dtwo, hand := h.hand, sni := h.sni, se := h.se, fresh := h.fresh,
           own := h.own, two := h.two, uaf := h.uaf }
  · cases l with
    | call t op => exact absurd rfl (hc t op)
    | _ => trivial
  · intro t pc h1 h2
    obtain ⟨p, e1, _, e3⟩ := hf t pc h1
    exact h.wni t p e1 (e3 h2)
  · intro t pc x h1 h2
    obtain ⟨p, e1, e2, _⟩ := hf t pc h1
    exact h.we t p x e1 (e2 _ h2)
  · intro t u pc pd i m o h1 h2 h3 h4
    obtain ⟨p, e1, e2, _⟩ := hf t pc h1
    obtain ⟨p', e1', e2', _⟩ := hf u pd h3
    exact h.uniq t u p p' i m o e1 (e2 _ h2) e1' (e2' _ h4)
  · intro t h1 h2
    obtain ⟨pc, e1, e2⟩ := h.pend t h1 h2
    exact frame_keep hs e1 e2 (fun e => hp t pc h1 h2 e e1 e2)

theorem lt_of_pc {T : Type} {l : List T} {t : Nat} {p : T} (h : l[t]? = some p) : t < l.length := by
  by_contra hc
  rw [List.getElem?_eq_none (by omega)] at h; cases h

theorem not_raising {k : KState M} {i : Nat} (h : k.raising i = false) {t : Nat} {pc : QPc (KTask M)} {m : M} (hp : k.wq.pcs[t]? = some pc)
    (he : earlyPc pc = some (.sinkFatal i m)) : False := by
  have := List.any_eq_false.1 h pc (List.mem_of_getElem? hp)
  apply this
  cases pc with
  | want op => cases op <;> simp [earlyPc] at he; subst he; simp [raisingPc]
  | crit op => cases op <;> simp [earlyPc] at he; subst he; simp [raisingPc]
  | _ => cases he

/-- A thread begins to push into the worker's queue. -/
theorem kinv_call {n : Nat} {k : KState M} {t : Nat} {x : KTask M} {q : QState (KTask M)} (h : KInv n k) (ht : 2 ≤ t) (hs : qStep k.wq (.call t (.push x)) = some q)
    (he : Ew k.ctl k.dthr t x) (hr : ∀ i m, x = .sinkFatal i m → k.raising i = false) : KInv n { k with wq := q } := by
  obtain ⟨e1, e2, e3⟩ := frame_call hs
  have hlt := lt_of_pc e1
  refine { wq := qone_step h.wq (l := .call t (.push x)) (Or.inr ⟨by omega, x, rfl⟩) hs, sq := h.sq, wni := ?_, we := ?_, uniq := ?_, pend := ?_, dthr := h.dthr, dtwo := h.dtwo, hand := h.hand,
           sni := h.sni, se := h.se, fresh := h.fresh, own := h.own, two := h.two, uaf := h.uaf }
  · intro u pc h1 h2
    simp only [e3] at h1
    rcases get_set h1 with ⟨f1, f2⟩ | ⟨_, f2⟩
    · subst f1; exact ⟨fun e => by omega, by omega⟩
    · exact h.wni u pc f2 h2
  · intro u pc y h1 h2
    simp only [e3] at h1
    rcases get_set h1 with ⟨f1, f2⟩ | ⟨_, f2⟩
    · subst f1; subst f2; cases h2; exact he
    · exact h.we u pc y f2 h2
  · intro u v pc pd i m o h1 h2 h3 h4
    simp only [e3] at h1 h3
    rcases get_set h1 with ⟨f1, f2⟩ | ⟨_, f2⟩
    · rcases get_set h3 with ⟨g1, g2⟩ | ⟨_, g2⟩
      · rw [f1, g1]
      · subst f2; cases h2
        exact (not_raising (hr i m rfl) g2 h4).elim
    · rcases get_set h3 with ⟨g1, g2⟩ | ⟨_, g2⟩
      · subst g2; cases h4
        exact (not_raising (hr i o rfl) f2 h2).elim
      · exact h.uniq u v pc pd i m o f2 h2 g2 h4
  · intro u h1 h2
    obtain ⟨pc, f1, f2⟩ := h.pend u h1 h2
    have : u ≠ t := by intro e; subst e; rw [e1] at f1; cases f1; cases f2
    exact ⟨pc, by simp only [e3, List.getElem?_set_ne (fun e => this e.symm)]; exact f1, f2⟩

/-- The destructor begins. -/
theorem kinv_dtor {n : Nat} {k : KState M} {t : Nat} {q : QState (KTask M)} (h : KInv n k) (ht : 2 ≤ t) (hs : qStep k.wq (.call t (.push .dtorClear)) = some q)
    (hd : k.dthr = none) (hp : k.ctl.phase = .notStarted) : KInv n { k with wq := q, dthr := some t } := by
  obtain ⟨e1, e2, e3⟩ := frame_call hs
  have hlt := lt_of_pc e1
  refine { wq := qone_step h.wq (l := .call t (.push .dtorClear)) (Or.inr ⟨by omega, _, rfl⟩) hs, sq := h.sq, wni := ?_, we := ?_, uniq := ?_, pend := ?_, dthr := fun e => (by cases e), dtwo := ?_, hand := h.hand,
           sni := ?_, se := h.se, fresh := h.fresh, own := h.own, two := h.two, uaf := h.uaf }
  · intro u pc h1 h2
    simp only [e3] at h1
    rcases get_set h1 with ⟨f1, f2⟩ | ⟨_, f2⟩
    · subst f1; exact ⟨fun e => by omega, by omega⟩
    · exact h.wni u pc f2 h2
  · intro u pc y h1 h2
    simp only [e3] at h1
    rcases get_set h1 with ⟨f1, f2⟩ | ⟨f0, f2⟩
    · subst f1; subst f2; cases h2
      exact ⟨fun i e => (by cases e), fun i m e => (by cases e), fun _ => ⟨hp, rfl⟩, fun e => (by cases e), fun _ => Or.inl rfl⟩
    · have g := h.we u pc y f2 h2
      refine ⟨g.remove, g.fatal, fun e => ?_, fun e => ?_, fun e => ?_⟩
      · have := (g.clear e).2; rw [hd] at this; cases this
      · have := (g.done e).2; rw [hd] at this; cases this
      · injection e with e; exact absurd e.symm f0
  · intro u v pc pd i m o h1 h2 h3 h4
    simp only [e3] at h1 h3
    rcases get_set h1 with ⟨f1, f2⟩ | ⟨_, f2⟩
    · subst f2; cases h2
    · rcases get_set h3 with ⟨g1, g2⟩ | ⟨_, g2⟩
      · subst g2; cases h4
      · exact h.uniq u v pc pd i m o f2 h2 g2 h4
  · intro u h1 h2
    injection h1 with h1
    subst h1
    exact ⟨.want (.push .dtorClear), by simp only [e3, List.getElem?_set_self hlt], rfl⟩
  · intro u h1
    injection h1 with h1
    have := h.wq.len
    omega
  · intro i u pc h1 h2
    have g := h.sni i u pc h1 h2
    refine ⟨g.lt, g.des, g.zero, g.one, fun e => ?_⟩
    rcases g.two e with g | g | ⟨g, _⟩
    · exact Or.inl g
    · exact Or.inr (Or.inl g)
    · rw [hp] at g; cases g

/-- The worker thread calls `wait_and_pop`. -/
theorem kinv_pop {n : Nat} {k : KState M} {q : QState (KTask M)} (h : KInv n k) (hs : qStep k.wq (.call 0 .waitPop) = some q)
    (hw : k.ctl.wpc = .idle) (hh : k.hand = none) : KInv n { k with wq := q } := by
  obtain ⟨e1, e2, e3⟩ := frame_call hs
  refine { wq := qone_step h.wq (l := .call 0 .waitPop) (Or.inl ⟨rfl, rfl⟩) hs, sq := h.sq, wni := ?_, we := ?_, uniq := ?_, pend := ?_, dthr := h.dthr, dtwo := h.dtwo, hand := h.hand,
           sni := h.sni, se := h.se, fresh := h.fresh, own := h.own, two := h.two, uaf := h.uaf }
  · intro u pc h1 h2
    simp only [e3] at h1
    rcases get_set h1 with ⟨f1, f2⟩ | ⟨_, f2⟩
    · subst f1; exact ⟨fun _ => ⟨hw, hh⟩, by omega⟩
    · exact h.wni u pc f2 h2
  · intro u pc y h1 h2
    simp only [e3] at h1
    rcases get_set h1 with ⟨f1, f2⟩ | ⟨_, f2⟩
    · subst f2; cases h2
    · exact h.we u pc y f2 h2
  · intro u v pc pd i m o h1 h2 h3 h4
    simp only [e3] at h1 h3
    rcases get_set h1 with ⟨f1, f2⟩ | ⟨_, f2⟩
    · subst f2; cases h2
    · rcases get_set h3 with ⟨g1, g2⟩ | ⟨_, g2⟩
      · subst g2; cases h4
      · exact h.uniq u v pc pd i m o f2 h2 g2 h4
  · intro u h1 h2
    obtain ⟨pc, f1, f2⟩ := h.pend u h1 h2
    have : u ≠ 0 := by intro e; subst e; rw [e1] at f1; cases f1; cases f2
    exact ⟨pc, by simp only [e3, List.getElem?_set_ne (fun e => this e.symm)]; exact f1, f2⟩

/-- A task enters the worker's queue. -/
theorem kinv_put {n : Nat} {k : KState M} {t : Nat} {op : QOp (KTask M)} {r : QRes (KTask M)} {q : QState (KTask M)} {c : WState M} {ow : List Nat} (h : KInv n k)
    (h1 : QOne n q) (h2 : q.pcs = k.wq.pcs.set t (.fin op r)) (h3 : ∃ x, k.wq.pcs[t]? = some (.crit (.push x)))
    (a : ∀ i (t : Nat) pc, (k.sq i).pcs[t]? = some pc → pc.isIdle = false → NIs k.ctl k.dthr i t → NIs c k.dthr i t)
    (b : ∀ i (t : Nat) pc x, (k.sq i).pcs[t]? = some pc → earlyPc pc = some x → Es k.ctl i t x → NIs k.ctl k.dthr i t → Es c i t x)
    (e : ∀ (u : Nat) pc x, u ≠ t → k.wq.pcs[u]? = some pc → earlyPc pc = some x → Ew k.ctl k.dthr u x → Ew c k.dthr u x)
    (f : c.wpc = k.ctl.wpc) (g : k.ctl.n ≤ c.n)
    (o : ow.length = c.calls.length) (o2 : ow = k.own ∨ ow = k.own ++ [t]) (p : c.phase = .notStarted → k.ctl.phase = .notStarted ∧ k.dthr ≠ some t) (w : k.dthr = none → c.phase = .notStarted) :
    KInv n { k with wq := q, ctl := c, own := ow } := by
  obtain ⟨x, h3⟩ := h3
  have ht : 2 ≤ t := by
    have n0 : t ≠ 0 := by
      intro e; subst e
      have := h.wq.cons _ h3; cases this
    have := (h.wni t _ h3 rfl).one
    omega
  refine { wq := h1, sq := h.sq, wni := ?_, we := ?_, uniq := ?_, pend := ?_, dthr := w, dtwo := h.dtwo, hand := ?_,
           sni := ?_, se := ?_, fresh := fun i hi => h.fresh i (Nat.le_trans g hi), own := o, two := ?_, uaf := h.uaf }
  · intro u pc e1 e2
    simp only [h2] at e1
    have : NIw k.ctl k.hand u := by
      rcases get_set e1 with ⟨f1, f2⟩ | ⟨_, f2⟩
      · subst f1; exact h.wni _ _ h3 rfl
      · exact h.wni u pc f2 e2
    exact ⟨fun e => by have := this.zero e; rw [← f] at this; exact this, this.one⟩
  · intro u pc y e1 e2
    simp only [h2] at e1
    rcases get_set e1 with ⟨f1, f2⟩ | ⟨f0, f2⟩
    · subst f2; cases e2
    · exact e u pc y f0 f2 e2 (h.we u pc y f2 e2)
  · intro u v pc pd i m o h1 h2' h3 h4
    simp only [h2] at h1 h3
    rcases get_set h1 with ⟨f1, f2⟩ | ⟨_, f2⟩
    · subst f2; cases h2'
    · rcases get_set h3 with ⟨g1, g2⟩ | ⟨_, g2⟩
      · subst g2; cases h4
      · exact h.uniq u v pc pd i m o f2 h2' g2 h4
  · intro u e1 e2
    obtain ⟨p1, p2⟩ := p e2
    obtain ⟨pc, f1, f2⟩ := h.pend u e1 p1
    have : u ≠ t := by intro e; subst e; exact p2 e1
    exact ⟨pc, by simp only [h2, List.getElem?_set_ne (fun e => this e.symm)]; exact f1, f2⟩
  · intro y hy
    show c.wpc = _
    rw [f]; exact h.hand y hy
  · exact fun i t pc h1 h2 => a i t pc h1 h2 (h.sni i t pc h1 h2)
  · exact fun i t pc x h1 h2 => b i t pc x h1 h2 (h.se i t pc x h1 h2) (h.sni i t pc h1 (early_busy h2))
  · intro u hu
    rcases o2 with e | e
    · rw [e] at hu; exact h.two u hu
    · rw [e] at hu
      rcases List.mem_append.1 hu with hu | hu
      · exact h.two u hu
      · have := h.wq.len
        have := lt_of_pc h3
        simp at hu; omega

theorem updQ_self (sq : Nat → QState (SItem M)) (i : Nat) (q : QState (SItem M)) : updQ sq i q i = q := if_pos rfl
theorem updQ_ne (sq : Nat → QState (SItem M)) {i j : Nat} (q : QState (SItem M)) (h : j ≠ i) : updQ sq i q j = sq j := if_neg h

/-- A queue of a sink changes. -/
theorem kinv_squeue {n : Nat} {k : KState M} {i : Nat} {q : QState (SItem M)} (h : KInv n k) (h1 : QOne n q) (hi : i < k.ctl.n)
    (a : ∀ (t : Nat) pc, q.pcs[t]? = some pc → pc.isIdle = false → NIs k.ctl k.dthr i t)
    (b : ∀ (t : Nat) pc x, q.pcs[t]? = some pc → earlyPc pc = some x → Es k.ctl i t x) : KInv n { k with sq := updQ k.sq i q } := by
  refine { wq := h.wq, sq := ?_, wni := h.wni, we := h.we, uniq := h.uniq, pend := h.pend, dthr := h.dthr, dtwo := h.dtwo, hand := h.hand,
           sni := ?_, se := ?_, fresh := ?_, own := h.own, two := h.two, uaf := h.uaf }
  · intro j
    by_cases e : j = i
    · subst e; simp only [updQ_self]; exact h1
    · simp only [updQ_ne _ _ e]; exact h.sq j
  · intro j t pc e1 e2
    by_cases e : j = i
    · subst e; simp only [updQ_self] at e1; exact a t pc e1 e2
    · simp only [updQ_ne _ _ e] at e1; exact h.sni j t pc e1 e2
  · intro j t pc x e1 e2
    by_cases e : j = i
    · subst e; simp only [updQ_self] at e1; exact b t pc x e1 e2
    · simp only [updQ_ne _ _ e] at e1; exact h.se j t pc x e1 e2
  · intro j hj
    have : j ≠ i := by rintro rfl; exact absurd hj (by simp only [] at hj ⊢; omega)
    simp only [updQ_ne _ _ this]; exact h.fresh j hj

/-- A thread begins to push into the queue of a sink. -/
theorem kinv_scall {n : Nat} {k : KState M} {t i : Nat} {x : SItem M} {q : QState (SItem M)} (h : KInv n k) (ht : t ≠ 0) (hs : qStep (k.sq i) (.call t (.push x)) = some q)
    (hn : NIs k.ctl k.dthr i t) (he : Es k.ctl i t x) : KInv n { k with sq := updQ k.sq i q } := by
  obtain ⟨e1, e2, e3⟩ := frame_call hs
  refine kinv_squeue h (qone_step (h.sq i) (l := .call t (.push x)) (Or.inr ⟨ht, x, rfl⟩) hs) hn.lt ?_ ?_
  · intro u pc h1 h2
    rw [e3] at h1
    rcases get_set h1 with ⟨f1, f2⟩ | ⟨_, f2⟩
    · subst f1; exact hn
    · exact h.sni i u pc f2 h2
  · intro u pc y h1 h2
    rw [e3] at h1
    rcases get_set h1 with ⟨f1, f2⟩ | ⟨_, f2⟩
    · subst f1; subst f2; cases h2; exact he
    · exact h.se i u pc y f2 h2

/-- The thread of a sink calls `wait_and_pop`. -/
theorem kinv_spop {n : Nat} {k : KState M} {i : Nat} {q : QState (SItem M)} (h : KInv n k) (hs : qStep (k.sq i) (.call 0 .waitPop) = some q)
    (hn : NIs k.ctl k.dthr i 0) : KInv n { k with sq := updQ k.sq i q } := by
  obtain ⟨e1, e2, e3⟩ := frame_call hs
  refine kinv_squeue h (qone_step (h.sq i) (l := .call 0 .waitPop) (Or.inl ⟨rfl, rfl⟩) hs) hn.lt ?_ ?_
  · intro u pc h1 h2
    rw [e3] at h1
    rcases get_set h1 with ⟨f1, f2⟩ | ⟨_, f2⟩
    · subst f1; exact hn
    · exact h.sni i u pc f2 h2
  · intro u pc y h1 h2
    rw [e3] at h1
    rcases get_set h1 with ⟨f1, f2⟩ | ⟨_, f2⟩
    · subst f1; subst f2; cases h2
    · exact h.se i u pc y f2 h2

/-- A step inside the queue of a sink that is no call. -/
theorem kinv_smem {n : Nat} {k : KState M} {i : Nat} {l : QLabel (SItem M)} {q : QState (SItem M)} (h : KInv n k) (hs : qStep (k.sq i) l = some q)
    (hc : ∀ t op, l ≠ .call t op) (hi : i < k.ctl.n) : KInv n { k with sq := updQ k.sq i q } := by
  have hf := frame_mem hs hc
  refine kinv_squeue h (qone_step (h.sq i) ?_ hs) hi ?_ ?_
  · cases l with
    | call t op => exact absurd rfl (hc t op)
    | _ => trivial
  · intro t pc h1 h2
    obtain ⟨p, e1, _, e3⟩ := hf t pc h1
    exact h.sni i t p e1 (e3 h2)
  · intro t pc x h1 h2
    obtain ⟨p, e1, e2, _⟩ := hf t pc h1
    exact h.se i t p x e1 (e2 _ h2)

/-- Who is inside no queue. -/
theorem out_get {k : KState M} {t : Nat} (h : k.out t = true) : k.wq.pcs[t]? = some .idle ∧ ∀ i, i < k.ctl.n → (k.sq i).pcs[t]? = some .idle := by
  simp only [KState.out, Bool.and_eq_true, List.all_eq_true, List.mem_range] at h
  have one : ∀ {T : Type} {o : Option (QPc T)}, o.any QPc.isIdle = true → o = some .idle := by
    intro T o ho
    cases o with
    | none => cases ho
    | some p => rw [idle_of (pc := p) ho]
  exact ⟨one h.1, fun i hi => one (h.2 i hi)⟩

theorem free_get {k : KState M} {t : Nat} (h : k.free t = true) : 2 ≤ t ∧ k.out t = true ∧ k.dthr ≠ some t := by
  simp only [KState.free, Bool.and_eq_true, decide_eq_true_eq] at h
  exact ⟨h.1.1.1, h.1.1.2, h.2⟩

theorem not_calling {k : KState M} {i : Nat} (h : k.calling i = false) {t : Nat} {pc : QPc (SItem M)} (ht : 2 ≤ t) (hp : (k.sq i).pcs[t]? = some pc) : pc = .idle := by
  have := List.any_eq_false.1 h pc (by
    refine List.mem_of_getElem? (i := t - 2) ?_
    rw [List.getElem?_drop, show 2 + (t - 2) = t by omega]; exact hp)
  apply idle_of
  simpa using this

end G3.Props
