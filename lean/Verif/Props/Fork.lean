import Verif.Proofs.Fork
import Verif.Props.WorkerLocksExamples
import Verif.Props.Front
/-
C102: a process forks while a worker exists. In the child the threads of the worker and of the sinks do not exist, but nothing tells the library so: logging
goes on to fill the queue, nothing is delivered, every call that waits for the worker waits for ever, so does the destructor, so does a fatal event; and if some
thread was inside the queue at the moment of the fork, already the first LOG waits for ever.
-/
namespace G3.Props
open G3 G3.Spec

variable {M : Type} {n : Nat} {k k' : KState M} {P : Nat → Prop} {pre ls : List (KLabel M)}

/-- The child, along its execution. -/
theorem child_run (h0 : kRun (KState.start n) pre = some k) (hr : k.race = false) (hb : k.ctl.phase.bgNull = false) :
    ∀ {ls : List (KLabel M)} {k' : KState M}, Forked k P ls → kRun k ls = some k' → Child k P k' ∧ KInv n k' ∧ AllInv (abs k') := by
  intro ls
  induction ls using List.reverseRecOn with
  | nil =>
    intro k' hf h
    cases h
    obtain ⟨a, b⟩ := sim_runs h0 hr
    exact ⟨child_start hb hr hf.free, a, allInv_run b⟩
  | append_singleton a l ih =>
    intro k' hf h
    obtain ⟨u, h1, h2⟩ := kRun_snoc h
    obtain ⟨hc, hi, hA⟩ := ih ⟨hf.free, fun x hx => hf.steps x (List.mem_append_left _ hx)⟩ h1
    have hle : k.ctl.completed ≤ u.ctl.sub.length := by
      have h3 := hA.w.book.le
      unfold started at h3
      have h4 : (abs u).completed = u.ctl.completed := rfl
      have h5 : (abs u).sub = u.ctl.sub := rfl
      rw [h4, h5, hc.comp] at h3
      omega
    have hc' := child_step hc hf.free hle hi (hf.steps l (by simp)) h2
    have h6 : kRun (KState.start n) (pre ++ (a ++ [l])) = some k' := kRun_join h0 h
    obtain ⟨x, y⟩ := sim_runs h6 hc'.race
    exact ⟨hc', x, allInv_run y⟩

theorem started_abs (u : KState M) : started (abs u) = u.ctl.completed + pcBusy u.ctl.wpc := rfl

/-- A sink gets nothing that the worker has not sent. -/
theorem child_received (hc : Child k P k') (hA : AllInv (abs k)) (hA' : AllInv (abs k')) (i : Nat) : received (k'.ctl.sk i) = received (k.ctl.sk i) := by
  by_cases hi : i < k.ctl.n
  · unfold received; rw [(hc.sk i hi).1]
  · have hi : k.ctl.n ≤ i := by omega
    have hfresh : (abs k).sk i = .fresh := hA.w.sinks.fresh i hi
    have e0 : received (k.ctl.sk i) = [] := by
      rw [← received_q (k.ctl.sk i) (sView (k.sq i)), show ({ k.ctl.sk i with q := sView (k.sq i) } : SinkSt M) = .fresh from hfresh]; rfl
    have g := hA.w.deliver.got i
    have g' := hA'.w.deliver.got i
    have hst : started (abs k') = started (abs k) := by rw [started_abs, started_abs, hc.comp, hc.wpc]
    have hreq : reqs (abs k') (started (abs k)) = reqs (abs k) (started (abs k)) := by
      obtain ⟨t, ht⟩ := hc.sub
      exact reqs_ext ⟨t, ht.symm⟩ hA.w.book.le
    rw [hst, hreq, ← g, hfresh] at g'
    have hp : (abs k').wpc = (abs k).wpc := hc.wpc
    rw [hp] at g'
    have hs : sentMsgs ((abs k').sk i) = [] := List.append_cancel_right g'
    rw [e0, ← received_q (k'.ctl.sk i) (sView (k'.sq i))]
    exact List.prefix_nil.1 (hs ▸ received_prefix ((abs k').sk i))

/-- **C102**: whatever the child does, no sink gets a message any more, neither those that were under way at the fork nor those that the child logs: everything
stays in the queue. -/
theorem C102_nothing (h0 : kRun (KState.start n) pre = some k) (hr : k.race = false) (hb : k.ctl.phase.bgNull = false) (hf : Forked k P ls)
    (h : kRun k ls = some k') :
    (∀ i, received (k'.ctl.sk i) = received (k.ctl.sk i)) ∧ k.wq.q <+: k'.wq.q ∧ k'.ctl.completed = k.ctl.completed := by
  obtain ⟨hc, _, hA'⟩ := child_run h0 hr hb hf h
  have hA := allInv_run (sim_runs h0 hr).2
  exact ⟨child_received hc hA hA', hc.q, hc.comp⟩

/-- **C102**: `addSink`, `removeSink` and `removeAllSinks` do not return to a thread of the child: the calls that have returned are those that had returned before. -/
theorem C102_calls (h0 : kRun (KState.start n) pre = some k) (hr : k.race = false) (hb : k.ctl.phase.bgNull = false) (hf : Forked k P ls)
    (h : kRun k ls = some k') {c u : Nat} {w : WCall} (hu : P u) (ho : k'.own[c]? = some u) (hw : k'.ctl.calls[c]? = some w) :
    w.returned = true ↔ c < k.ctl.calls.length := by
  obtain ⟨hc, _, _⟩ := child_run h0 hr hb hf h
  constructor
  · intro hr
    by_cases hl : c < k.ctl.calls.length
    · exact hl
    · rw [(hc.new c w (by omega) hw).1] at hr; cases hr
  · intro hl
    obtain ⟨a, b⟩ := hc.old c hl
    exact free_returned (hf.free u hu) (a ▸ hw) (b ▸ ho)

/-- **C102**: the destructor of the worker does not return in the child; a fatal event does not end the child. -/
theorem C102_end (h0 : kRun (KState.start n) pre = some k) (hr : k.race = false) (hb : k.ctl.phase.bgNull = false) (hd : k.ctl.wpc.isDead = false) (hf : Forked k P ls)
    (h : kRun k ls = some k') : k'.ctl.phase ≠ .returned ∧ k'.ctl.phase.bgNull = false ∧ k'.ctl.wpc.isDead = false := by
  obtain ⟨hc, _, _⟩ := child_run h0 hr hb hf h
  refine ⟨?_, hc.bg, by rw [hc.wpc]; exact hd⟩
  intro e
  have := hc.bg
  rw [e] at this; cases this

/-! ### A thread was inside the queue -/

theorem set_other {T : Type} {l : List T} {t u : Nat} {x p : T} (hn : t ≠ u) (h : l[u]? = some x) : (l.set t p)[u]? = some x := by
  rw [List.getElem?_set_ne hn]; exact h

/-- Nothing moves in a queue whose mutex belongs to a thread that is not there. -/
theorem locked_mem {T : Type} {s s' : QState T} {l : QLabel T} (hi : QOne n s) {u : Nat} (ho : s.owner = some u) (hw : who l ≠ u) (hc : ∀ t op, l ≠ .call t op)
    (h : qStep s l = some s') : s'.owner = some u ∧ s'.q = s.q ∧ (∀ (t : Nat) (op : QOp T), s.pcs[t]? = some (QPc.want op) → s'.pcs[t]? = some (QPc.want op)) ∧ ∃ t, l = .spurious t ∨ ∃ v, l = .notify t v := by
  cases l with
  | call t op => exact absurd rfl (hc t op)
  | lock t => simp only [qStep, ho] at h; cases h
  | act t =>
    obtain ⟨op, hp⟩ := act_crit h
    have := (hi.lock t _ hp).1 rfl
    rw [ho] at this; cases this; exact absurd rfl hw
  | unlock t =>
    simp only [qStep] at h
    split at h
    · next hp =>
      have := (hi.lock t _ hp).1 rfl
      rw [ho] at this; cases this; exact absurd rfl hw
    · next hp =>
      have := (hi.lock t _ hp).1 rfl
      rw [ho] at this; cases this; exact absurd rfl hw
    · cases h
  | notify t v =>
    simp only [qStep] at h
    split at h
    · next hp =>
      have ne : ∀ {x : Nat} {op : QOp T}, s.pcs[x]? = some (.want op) → t ≠ x := by
        intro x op hx e; subst e; rw [hp] at hx; cases hx
      split at h
      · split at h
        · cases h
        · cases h; exact ⟨ho, rfl, fun x op hx => set_other (ne hx) hx, t, Or.inr ⟨_, rfl⟩⟩
      · next v =>
        split at h
        · next hv =>
          cases h
          refine ⟨ho, rfl, fun x op hx => set_other ?_ (set_other (ne hx) hx), t, Or.inr ⟨_, rfl⟩⟩
          intro e; subst e; rw [hv] at hx; cases hx
        · cases h
    · cases h
  | spurious t =>
    simp only [qStep] at h
    split at h
    · next hp =>
      cases h
      refine ⟨ho, rfl, fun x op hx => set_other ?_ hx, t, Or.inl rfl⟩
      intro e; subst e; rw [hp] at hx; cases hx
    · cases h

theorem locked_call {T : Type} {s s' : QState T} {t : Nat} {op : QOp T} (h : qStep s (.call t op) = some s') :
    s'.owner = s.owner ∧ s'.q = s.q ∧ (∀ (u : Nat) (o : QOp T), s.pcs[u]? = some (QPc.want o) → s'.pcs[u]? = some (QPc.want o)) ∧ s'.pcs[t]? = some (.want op) := by
  simp only [qStep] at h
  split at h
  · next hp =>
    cases h
    refine ⟨rfl, rfl, fun u o hu => set_other ?_ hu, List.getElem?_set_self (lt_of_pc hp)⟩
    intro e; subst e; rw [hp] at hu; cases hu
  · cases h

/-- The thread begins `push` of the worker's queue. -/
def intoQueue (l : WLabel M) (x : KTask M) : Prop := begins l x ∨ (l = .dtor ∧ x = .dtorClear)

theorem locked_step (hc : Child k P k') (hi : KInv n k') (hfree : ∀ v, P v → k.free v = true) {u : Nat} (hu : ¬ P u) (ho : k'.wq.owner = some u) {l : KLabel M} {k2 : KState M}
    (hl : InChild k.ctl.n P l) (h : kStep k' l = some k2) :
    k2.wq.owner = some u ∧ k2.wq.q = k'.wq.q ∧ (∀ (t : Nat) (op : QOp (KTask M)), k'.wq.pcs[t]? = some (QPc.want op) → k2.wq.pcs[t]? = some (QPc.want op)) ∧
    ∀ (t : Nat) (l' : WLabel M) (x : KTask M), l = .thr t l' → intoQueue l' x → k2.wq.pcs[t]? = some (.want (.push x)) := by
  unfold kStep at h
  split at h
  · cases h
  · cases l with
    | pop => exact hl.elim
    | thr t l =>
      simp only at h
      by_cases hd : l = .dtor
      · subst hd
        rcases dtor_shape h with ⟨_, _, q, hq, rfl⟩ | ⟨hthr, _, hrest⟩
        · obtain ⟨a, b, c, d⟩ := locked_call hq
          refine ⟨a.trans ho, b, c, ?_⟩
          intro t' l' x e hx
          cases e
          rcases hx with hx | ⟨_, rfl⟩
          · exact hx.elim
          · exact d
        · have hb := hc.bg
          have hcd := child_dtor hc hl h
          rcases hrest with ⟨p, q, hp, hst, _⟩ | ⟨hp, _⟩ | ⟨hp, _⟩
          · have := hcd.bg; rw [hst] at this; cases this
          · rw [hp] at hb; cases hb
          · rw [gone_null hb] at hp; cases hp
      · rcases act_shape h hd with ⟨⟨e, _, _, _⟩, hno⟩ | ⟨y, q, hy, hq, rfl, _⟩
        · refine ⟨by rw [e]; exact ho, by rw [e], fun t op => by rw [e]; exact id, ?_⟩
          intro t' l' x e' hx
          cases e'
          rcases hx with hx | ⟨hx, _⟩
          · have := hno ⟨x, hx⟩; rw [hc.bg] at this; cases this
          · exact absurd hx hd
        · obtain ⟨a, b, c, d⟩ := locked_call hq
          refine ⟨a.trans ho, b, c, ?_⟩
          intro t' l' x e' hx
          cases e'
          rcases hx with hx | ⟨hx, _⟩
          · have : x = y := by
              cases l <;> first | (cases hx; cases hy; rfl) | exact hx.elim
            rw [this]; exact d
          · exact absurd hx hd
    | mem l =>
      have hg := gone_null hc.bg
      simp only [hg, Bool.false_eq_true, if_false] at h
      have hwu : who l ≠ u := fun e => hu (e ▸ hl)
      have hw0 : who l ≠ 0 := by have := (free_get (hfree _ hl)).1; omega
      have key : ∃ q, qStep k'.wq l = some q ∧ (∀ t op, l ≠ .call t op) ∧ k2.wq = q := by
        unfold KState.mem at h
        cases l with
        | call t op => cases h
        | act t =>
          simp only at h
          split at h
          · next j hp =>
            have := (hi.wq.lock t _ hp).1 rfl
            rw [ho] at this; cases this; exact absurd rfl hwu
          · obtain ⟨q, hq, rfl⟩ := Option.map_eq_some_iff.1 h
            exact ⟨q, hq, (by intro _ _ e; cases e), rfl⟩
        | unlock t =>
          simp only at h
          split at h
          all_goals
            obtain ⟨q, hq, rfl⟩ := Option.map_eq_some_iff.1 h
            exact ⟨q, hq, (by intro _ _ e; cases e), rfl⟩
        | lock t => obtain ⟨q, hq, rfl⟩ := Option.map_eq_some_iff.1 h; exact ⟨q, hq, (by intro _ _ e; cases e), rfl⟩
        | notify t v => obtain ⟨q, hq, rfl⟩ := Option.map_eq_some_iff.1 h; exact ⟨q, hq, (by intro _ _ e; cases e), rfl⟩
        | spurious t => obtain ⟨q, hq, rfl⟩ := Option.map_eq_some_iff.1 h; exact ⟨q, hq, (by intro _ _ e; cases e), rfl⟩
      obtain ⟨q, hq, hcall, rfl⟩ := key
      obtain ⟨a, b, c, _⟩ := locked_mem hi.wq ho hwu hcall hq
      exact ⟨a, b, c, by intro _ _ _ e; cases e⟩
    | smem i l =>
      have key : k2.wq = k'.wq := by
        have sm : ∀ {v : KState M}, k'.smem i l = some v → v.wq = k'.wq := by
          intro v hv
          unfold KState.smem at hv
          cases l <;> simp only at hv
          case call => cases hv
          all_goals (repeat' split at hv) <;> (obtain ⟨q, _, rfl⟩ := Option.map_eq_some_iff.1 hv; rfl)
        simp only at h
        split at h
        · obtain ⟨v, _, rfl⟩ := Option.map_eq_some_iff.1 h; rfl
        · exact sm h
      exact ⟨by rw [key]; exact ho, by rw [key], fun t op => by rw [key]; exact id, by intro _ _ _ e; cases e⟩

/-- **C102**: if the mutex of the queue belonged to another thread at the moment of the fork, nothing enters the queue any more, and a thread of the child that logs, or
calls any other function that needs the queue, never comes back. -/
theorem C102_locked (h0 : kRun (KState.start n) pre = some k) (hr : k.race = false) (hb : k.ctl.phase.bgNull = false) {u : Nat} (hu : ¬ P u)
    (ho : k.wq.owner = some u) (hf : Forked k P ls) (h : kRun k ls = some k') :
    k'.wq.q = k.wq.q ∧ ∀ (a b : List (KLabel M)) (t : Nat) (l : WLabel M) (x : KTask M), ls = a ++ .thr t l :: b → intoQueue l x → k'.wq.pcs[t]? = some (.want (.push x)) ∧ k'.free t = false := by
  suffices hs : k'.wq.owner = some u ∧ k'.wq.q = k.wq.q ∧ ∀ (a b : List (KLabel M)) (t : Nat) (l : WLabel M) (x : KTask M), ls = a ++ .thr t l :: b → intoQueue l x → k'.wq.pcs[t]? = some (.want (.push x)) by
    refine ⟨hs.2.1, fun a b t l x e hx => ?_⟩
    have hp := hs.2.2 a b t l x e hx
    refine ⟨hp, ?_⟩
    cases hfr : k'.free t with
    | false => rfl
    | true => have := (out_get (free_get hfr).2.1).1; rw [hp] at this; cases this
  induction ls using List.reverseRecOn generalizing k' with
  | nil => cases h; exact ⟨ho, rfl, fun a b t l x e => by simp at e⟩
  | append_singleton c l ih =>
    obtain ⟨v, h1, h2⟩ := kRun_snoc h
    have hf' : Forked k P c := ⟨hf.free, fun x hx => hf.steps x (List.mem_append_left _ hx)⟩
    obtain ⟨a1, a2, a3⟩ := ih hf' h1
    obtain ⟨hc, hi, _⟩ := child_run h0 hr hb hf' h1
    obtain ⟨b1, b2, b3, b4⟩ := locked_step hc hi hf.free hu a1 (hf.steps l (by simp)) h2
    refine ⟨b1, b2.trans a2, ?_⟩
    intro a b t l' x e hx
    rcases List.eq_nil_or_concat b with rfl | ⟨b', y, rfl⟩
    · have e2 := List.append_inj' e rfl
      have e3 : l = .thr t l' := by simpa using e2.2
      subst e3
      exact b4 t l' x rfl hx
    · rw [List.concat_eq_append, ← List.cons_append, ← List.append_assoc] at e
      have e2 := List.append_inj' e rfl
      exact b3 t _ (a3 a b' t l' x e2.1 hx)

/-! ### Nobody was inside the queue -/

/-- A thread that is free logs, the mutex being free. -/
theorem log_alone {t : Nat} (hf : k.free t = true) (ho : k.wq.owner = none) (hb : k.ctl.phase.bgNull = false) (hu : k.ctl.ub = false) (hd : k.ctl.wpc.isDead = false)
    (hr : k.race = false) (ha : k.uaf = false) (m : M) :
    ∃ w q', kRun k [.thr t (.save m), .mem (.lock t), .mem (.act t), .mem (.unlock t), .mem (.notify t w)] =
      some { k with wq := q', ctl := { k.ctl with sub := k.ctl.sub ++ [.save m] } } ∧ q'.q = k.wq.q ++ [.save m] ∧ q'.owner = none ∧ q'.pcs[t]? = some .idle := by
  have hp := (out_get (free_get hf).2.1).1
  have hlt := lt_of_pc hp
  have hg := gone_null hb
  have hcond : ∀ {a b c d : Bool}, a = false → b = false → c = false → d = false → ¬ (a = true ∨ b = true ∨ c = true ∨ d = true) := by
    intro a b c d h1 h2 h3 h4; rw [h1, h2, h3, h4]; simp
  let pcs4 := k.wq.pcs.set t .notify
  let tr := k.wq.trace ++ [.call t (.push (.save m))] ++ [.lin t (.push (.save m)) .unit]
  let k4 : KState M := { k with wq := ⟨k.wq.q ++ [.save m], none, pcs4, tr⟩, ctl := { k.ctl with sub := k.ctl.sub ++ [.save m] } }
  have run4 : kRun k [.thr t (.save m), .mem (.lock t), .mem (.act t), .mem (.unlock t)] = some k4 := by
    have s1 : kStep k (.thr t (.save m)) = some { k with wq := { k.wq with pcs := k.wq.pcs.set t (.want (.push (.save m))), trace := k.wq.trace ++ [.call t (.push (.save m))] } } := by
      unfold kStep
      rw [if_neg (hcond hu hd hr ha)]
      show (if k.free t = false then none else if k.ctl.phase.bgNull then _ else k.enter t (.save m)) = _
      rw [hf, hb]
      simp only [KState.enter, qStep, hp]
      rfl
    have s2 : ∀ {u : KState M}, u = { k with wq := { k.wq with pcs := k.wq.pcs.set t (.want (.push (.save m))), trace := k.wq.trace ++ [.call t (.push (.save m))] } } →
        kStep u (.mem (.lock t)) = some { k with wq := { k.wq with owner := some t, pcs := k.wq.pcs.set t (.crit (.push (.save m))), trace := k.wq.trace ++ [.call t (.push (.save m))] } } := by
      rintro u rfl
      unfold kStep
      rw [if_neg (hcond hu hd hr ha)]
      simp only [hg, KState.mem, qStep, ho, List.getElem?_set_self hlt, List.set_set]
      rfl
    have s3 : ∀ {u : KState M}, u = { k with wq := { k.wq with owner := some t, pcs := k.wq.pcs.set t (.crit (.push (.save m))), trace := k.wq.trace ++ [.call t (.push (.save m))] } } →
        kStep u (.mem (.act t)) = some { k with wq := ⟨k.wq.q ++ [.save m], some t, k.wq.pcs.set t (.fin (.push (.save m)) .unit), tr⟩, ctl := { k.ctl with sub := k.ctl.sub ++ [.save m] } } := by
      rintro u rfl
      unfold kStep
      rw [if_neg (hcond hu hd hr ha)]
      simp only [hg, KState.mem, List.getElem?_set_self hlt, KState.put, hb, KState.number, qStep, critical, List.set_set]
      rfl
    have s4 : ∀ {u : KState M}, u = { k with wq := ⟨k.wq.q ++ [.save m], some t, k.wq.pcs.set t (.fin (.push (.save m)) .unit), tr⟩, ctl := { k.ctl with sub := k.ctl.sub ++ [.save m] } } →
        kStep u (.mem (.unlock t)) = some k4 := by
      rintro u rfl
      unfold kStep
      rw [if_neg (hcond hu hd hr ha)]
      simp only [hg, KState.mem, List.getElem?_set_self hlt, qStep, List.set_set]
      rfl
    simp only [kRun, s1, Option.bind_some, s2 rfl, s3 rfl, s4 rfl]
  have hp4 : k4.wq.pcs[t]? = some .notify := List.getElem?_set_self hlt
  have fin : ∀ w q', qStep k4.wq (.notify t w) = some q' → q'.q = k.wq.q ++ [.save m] → q'.owner = none → q'.pcs[t]? = some .idle →
      ∃ w q', kRun k [.thr t (.save m), .mem (.lock t), .mem (.act t), .mem (.unlock t), .mem (.notify t w)] =
      some { k with wq := q', ctl := { k.ctl with sub := k.ctl.sub ++ [.save m] } } ∧ q'.q = k.wq.q ++ [.save m] ∧ q'.owner = none ∧ q'.pcs[t]? = some .idle := by
    intro w q' hq h1 h2 h3
    refine ⟨w, q', ?_, h1, h2, h3⟩
    have := kRun_join (b := [.mem (.notify t w)]) (v := { k with wq := q', ctl := { k.ctl with sub := k.ctl.sub ++ [.save m] } }) run4 (by
      show (kStep k4 _).bind _ = _
      have : kStep k4 (.mem (.notify t w)) = some { k with wq := q', ctl := { k.ctl with sub := k.ctl.sub ++ [.save m] } } := by
        unfold kStep
        rw [if_neg (hcond hu hd hr ha)]
        have hg4 : k4.ctl.phase.queueGone = false := hg
        simp only [hg4, KState.mem, hq]
        rfl
      rw [this]; rfl)
    exact this
  cases hw : k4.wq.hasWaiter with
  | false =>
    refine fin none _ (by simp only [qStep, hp4, hw]; rfl) rfl rfl ?_
    exact List.getElem?_set_self (by simpa using lt_of_pc hp4)
  | true =>
    obtain ⟨p, hmem, hpw⟩ := List.any_eq_true.1 hw
    obtain ⟨v, hv⟩ := List.mem_iff_getElem?.1 hmem
    have hv : k4.wq.pcs[v]? = some .waiting := by
      cases p <;> first | exact hv | cases hpw
    have hne : v ≠ t := by intro e; subst e; rw [hp4] at hv; cases hv
    refine fin (some v) _ (by simp only [qStep, hp4, hv]; rfl) rfl rfl ?_
    show ((k4.wq.pcs.set t .idle).set v .woken)[t]? = _
    rw [List.getElem?_set_ne hne]
    exact List.getElem?_set_self (by simpa using lt_of_pc hp4)

theorem free_log {t : Nat} {q' : QState (KTask M)} {sb : List (WTask M)} (hf : k.free t = true) (hp : q'.pcs[t]? = some .idle) :
    KState.free { k with wq := q', ctl := { k.ctl with sub := sb } } t = true := by
  unfold KState.free KState.out at hf ⊢
  simp only [Bool.and_eq_true] at hf ⊢
  exact ⟨⟨⟨hf.1.1.1, by rw [hp]; rfl, hf.1.1.2.2⟩, hf.1.2⟩, hf.2⟩

/-- **C102**: if nobody was inside the queue at the moment of the fork, the child can log as often as it wants, and each LOG returns: the messages are in the queue. (With
`C102_nothing`: they stay there.) -/
theorem C102_log {t : Nat} (ms : List M) (hr : k.race = false) (hb : k.ctl.phase.bgNull = false) (hu : k.ctl.ub = false)
    (hd : k.ctl.wpc.isDead = false) (ha : k.uaf = false) (hf : k.free t = true) (ho : k.wq.owner = none) :
    ∃ ls k', Forked k (· = t) ls ∧ kRun k ls = some k' ∧ k'.wq.q = k.wq.q ++ ms.map .save ∧ k'.free t = true ∧ k'.wq.owner = none := by
  induction ms generalizing k with
  | nil => exact ⟨[], k, ⟨fun u e => e ▸ hf, fun l hl => by cases hl⟩, rfl, by simp, hf, ho⟩
  | cons m ms ih =>
    obtain ⟨w, q', h1, h2, h3, h4⟩ := log_alone hf ho hb hu hd hr ha m
    obtain ⟨ls, k', g1, g2, g3, g4, g5⟩ := ih (k := { k with wq := q', ctl := { k.ctl with sub := k.ctl.sub ++ [.save m] } }) hr hb hu hd ha (free_log hf h4) h3
    refine ⟨_ ++ ls, k', ⟨fun u e => e ▸ hf, ?_⟩, kRun_join h1 g2, ?_, g4, g5⟩
    · intro l hl
      rcases List.mem_append.1 hl with hl | hl
      · simp only [List.mem_cons, List.not_mem_nil, or_false] at hl
        rcases hl with rfl | rfl | rfl | rfl | rfl <;> exact rfl
      · exact g1.steps l hl
    · rw [g3, h2, List.map_cons, List.append_assoc]; rfl

/-! ### Concrete executions -/

/-- Thread 2 has added a sink; the worker thread and the thread of the sink wait. -/
def oneSinkWaits : List (KLabel Nat) := waitingWorker ++ [.thr 2 .add] ++ pushingWake 2 ++ takingWoken ++ [.thr 2 (.ret 0)] ++ waitingWorker ++ sinkWaits 0

/-- What the parent does: it logs, and the message is delivered. -/
def parentLogs : List (KLabel Nat) := [.thr 2 (.save 9)] ++ pushingWake 2 ++ takingWoken ++
  [.thr 0 .work, .smem 0 (.lock 1), .smem 0 (.act 1), .smem 0 (.unlock 1), .smem 0 (.notify 1 (some 0)), .thr 0 .work] ++
  [.smem 0 (.lock 0), .smem 0 (.act 0), .smem 0 (.unlock 0), .thr 0 (.sinkFin 0)]

/-- **C102** fails: parent and child log the same message; it is delivered by the parent, and by the child never. What the child calls then does not return. -/
theorem C102_negation : ∃ (pre : List (KLabel Nat)) (k : KState Nat), kRun (KState.start 3) pre = some k ∧ k.race = false ∧ k.ctl.phase.bgNull = false ∧ k.free 2 = true ∧
    (∃ ls k', kRun k (.thr 2 (.save 9) :: ls) = some k' ∧ received (k'.ctl.sk 0) = [.log 9]) ∧
    (∃ ls k', Forked k (· = 2) (.thr 2 (.save 9) :: ls) ∧ kRun k (.thr 2 (.save 9) :: ls) = some k' ∧ k'.wq.q = [.save 9] ∧ k'.free 2 = true) ∧
    (∀ ls k', Forked k (· = 2) ls → kRun k ls = some k' →
      received (k'.ctl.sk 0) = [] ∧ k'.ctl.phase ≠ .returned ∧ k'.ctl.wpc.isDead = false ∧ ∀ c w, 1 ≤ c → k'.ctl.calls[c]? = some w → w.returned = false) := by
  refine ⟨oneSinkWaits, _, rfl, rfl, rfl, rfl, ⟨parentLogs.tail, _, rfl, rfl⟩, ⟨pushingWake 2, _, ⟨?_, ?_⟩, rfl, rfl, rfl⟩, ?_⟩
  · rintro u rfl; rfl
  · intro l hl
    simp only [pushingWake, List.mem_cons, List.not_mem_nil, or_false] at hl
    rcases hl with rfl | rfl | rfl | rfl | rfl <;> exact rfl
  · intro ls k' hf h
    have h0 : kRun (KState.start 3) oneSinkWaits = some _ := rfl
    obtain ⟨a, _, _⟩ := C102_nothing h0 rfl rfl hf h
    obtain ⟨b, _, c⟩ := C102_end h0 rfl rfl rfl hf h
    obtain ⟨hc, _, _⟩ := child_run h0 rfl rfl hf h
    exact ⟨a 0, b, c, fun c w h1 hw => (hc.new c w h1 hw).1⟩

/-- `C102_locked`: the fork happens while thread 3 holds the mutex; the LOG of thread 2 can begin in the child. -/
example : ∃ k k', kRun (KState.start 4 : KState Nat) [.thr 3 (.save 1), .mem (.lock 3)] = some k ∧ k.race = false ∧ k.ctl.phase.bgNull = false ∧ k.wq.owner = some 3 ∧
    Forked k (· = 2) [.thr 2 (.save 2)] ∧ kRun k [.thr 2 (.save 2)] = some k' :=
  ⟨_, _, rfl, rfl, rfl, rfl, ⟨by rintro u rfl; rfl, by intro l hl; simp only [List.mem_singleton] at hl; subst hl; rfl⟩, rfl⟩

/-- `C102_calls`: the child adds a sink; the call is number 1. `C102_end`: the child destroys the worker. -/
example : ∃ k k', kRun (KState.start 3 : KState Nat) oneSinkWaits = some k ∧ Forked k (· = 2) (.thr 2 .add :: pushingWake 2) ∧
    kRun k (.thr 2 .add :: pushingWake 2) = some k' ∧ k'.own[1]? = some 2 ∧ (k'.ctl.calls[1]?).map (·.returned) = some false := by
  refine ⟨_, _, rfl, ⟨by rintro u rfl; rfl, ?_⟩, rfl, rfl, rfl⟩
  intro l hl
  simp only [pushingWake, List.mem_cons, List.not_mem_nil, or_false] at hl
  rcases hl with rfl | rfl | rfl | rfl | rfl <;> exact rfl

example : ∃ k k', kRun (KState.start 3 : KState Nat) oneSinkWaits = some k ∧ Forked k (· = 2) (.thr 2 .dtor :: pushingWake 2) ∧
    kRun k (.thr 2 .dtor :: pushingWake 2) = some k' ∧ k'.ctl.phase = .clearing 1 ∧ k'.wq.q = [.dtorClear] := by
  refine ⟨_, _, rfl, ⟨by rintro u rfl; rfl, ?_⟩, rfl, rfl, rfl⟩
  intro l hl
  simp only [pushingWake, List.mem_cons, List.not_mem_nil, or_false] at hl
  rcases hl with rfl | rfl | rfl | rfl | rfl <;> exact rfl

/-- What can happen in a child of a process with one sink: its thread 2 asks for a fatal statement in the call of a sink of its own; not of the other sink, which has no thread, nor can thread 3. -/
example (m : Nat) : InChild 1 (· = 2) (.thr 2 (.sinkFatal 1 m)) ∧ InChild 1 (· = 2) (.thr 2 (.sinkFatal 4 m)) ∧ ¬ InChild 1 (· = 2) (.thr 2 (.sinkFatal 0 m)) ∧
    ¬ InChild 1 (· = 2) (.thr 3 (.sinkFatal 1 m)) ∧ InChild (M := Nat) 1 (· = 2) (.thr 0 (.sinkPop 1)) ∧ ¬ InChild (M := Nat) 1 (· = 2) (.thr 0 (.sinkPop 0)) ∧
    ¬ InChild (M := Nat) 1 (· = 2) (.thr 0 .work) ∧ InChild (M := Nat) 1 (· = 2) (.smem 1 (.lock 0)) ∧ ¬ InChild (M := Nat) 1 (· = 2) (.smem 0 (.lock 0)) := by
  simp [InChild, who]

/-! ### What the child can do -/

/-- **C102**, what holds: the child that shuts logging down and initialises it with a worker of its own (whose threads exist) has its messages handed to that worker; the
worker of the parent gets none of them. Without shutting down first, the second initialisation ends the process (`C13_illegal`). -/
theorem C102_partial (E : Env) (src : Src) (d : Nat) (pre post : List FOp) (w w' : Nat) (ms : List LogMessage) (h1 : calm pre) (h2 : noInit pre) (h3 : calm post)
    (hok : (fRun E src d Front.start (pre ++ .init (some w) :: post)).2.2 = .ok) :
    saves (fRun E src d Front.start (pre ++ .init (some w) :: post ++ .shutdown :: .init (some w') :: ms.map .log)).2.1 =
      saves (fRun E src d Front.start (pre ++ .init (some w) :: post)).2.1 ++ ms.map fun m => (w', m) := by
  have := (C11_after_shutdown E src d pre post w w' [] ms h1 h2 h3 hok).2.2
  simpa using this

end G3.Props
