import Verif.Proofs.WorkerLocksInv
import Verif.Spec.WorkerLocks
/-
Lemmas for Verif.Props.WorkerLocks: every step is a step of Verif.Model.Worker or none.
-/
namespace G3.Props
open G3 G3.Spec

variable {M : Type} {n : Nat} {k k' : KState M}

/-- A step, or none, of Verif.Model.Worker. -/
def SimTo (n : Nat) (k k' : KState M) : Option (WLabel M) → Prop
  | none => KInv n k' ∧ abs k' = abs k
  | some l => KInv n k' ∧ wStep (abs k) l = some (abs k')

theorem sim_none (h : KInv n k' ∧ abs k' = abs k) : SimTo n k k' none := h

theorem sim_one {l : WLabel M} (h : KInv n k' ∧ wStep (abs k) l = some (abs k')) : SimTo n k k' (some l) := h

theorem wext {a b : WState M} (h1 : a.wq = b.wq) (h2 : a.sub = b.sub) (h3 : a.completed = b.completed) (h4 : a.wpc = b.wpc) (h5 : a.att = b.att) (h6 : a.n = b.n)
    (h7 : a.sk = b.sk) (h8 : a.err = b.err) (h9 : a.calls = b.calls) (h10 : a.failed = b.failed) (h11 : a.phase = b.phase) (h12 : a.ub = b.ub) : a = b := by
  cases a; cases b; simp only at *; subst_vars; rfl

theorem abs_wq {q : QState (KTask M)} (h : qView isEnd .done q = qView isEnd .done k.wq) : abs { k with wq := q } = abs k :=
  wext (by simp only [abs, wView]; rw [h]) rfl rfl rfl rfl rfl rfl rfl rfl rfl rfl rfl

theorem sk_cq {i : Nat} {q : QState (SItem M)} {f g : SinkSt M → SinkSt M} (h : { g (k.ctl.sk i) with q := sView q } = f ((abs k).sk i)) :
    (fun j => { updSink k.ctl.sk i g j with q := sView (updQ k.sq i q j) }) = updSink (abs k).sk i f := by
  funext j
  by_cases e : j = i
  · subst e; simp only [updSink_self, updQ_self]; exact h
  · simp only [updSink_ne _ _ e, updQ_ne _ _ e]; rfl

theorem sk_c {i : Nat} {f g : SinkSt M → SinkSt M} (h : { g (k.ctl.sk i) with q := sView (k.sq i) } = f ((abs k).sk i)) :
    (fun j => { updSink k.ctl.sk i g j with q := sView (k.sq j) }) = updSink (abs k).sk i f := by
  funext j
  by_cases e : j = i
  · subst e; simp only [updSink_self]; exact h
  · simp only [updSink_ne _ _ e]; rfl

theorem sk_q {i : Nat} {q : QState (SItem M)} {f : SinkSt M → SinkSt M} (h : { k.ctl.sk i with q := sView q } = f ((abs k).sk i)) :
    (fun j => { k.ctl.sk j with q := sView (updQ k.sq i q j) }) = updSink (abs k).sk i f := by
  funext j
  by_cases e : j = i
  · subst e; simp only [updSink_self, updQ_self]; exact h
  · simp only [updSink_ne _ _ e, updQ_ne _ _ e]; rfl

theorem abs_sq {i : Nat} {q : QState (SItem M)} (h : sView q = sView (k.sq i)) : abs { k with sq := updQ k.sq i q } = abs k := by
  refine wext rfl rfl rfl rfl rfl rfl ?_ rfl rfl rfl rfl rfl
  funext j
  show ({ k.ctl.sk j with q := sView (updQ k.sq i q j) } : SinkSt M) = { k.ctl.sk j with q := sView (k.sq j) }
  by_cases e : j = i
  · subst e; simp only [updQ_self]; rw [h]
  · simp only [updQ_ne _ _ e]

/-- Something alive. -/
theorem alive_ctl (A : AllInv (abs k)) {i : Nat} (hi : i < k.ctl.n) (ho : owned k.ctl i = true) :
    (k.ctl.sk i).stopSent = false ∧ (k.ctl.sk i).destroyed = false ∧ (k.ctl.sk i).exited = false ∧ (k.ctl.sk i).reaping = false := by
  have h1 : ((abs k).sk i).stopSent = false := alive_of_owned A.w.sinks hi ho
  obtain ⟨h2, h3, h4⟩ := linv_alive (A.w.sinks.loc i) h1
  exact ⟨h1, h3, h2, h4⟩

/-- One sink changes. -/
theorem kinv_sk (h : KInv n k) {i : Nat} {g : SinkSt M → SinkSt M}
    (a : ∀ (t : Nat) pc, (k.sq i).pcs[t]? = some pc → pc.isIdle = false → NIs k.ctl k.dthr i t → (g (k.ctl.sk i)).destroyed = false ∧
      (t = 0 → (g (k.ctl.sk i)).running = none ∧ (g (k.ctl.sk i)).exited = false) ∧
      (2 ≤ t → 0 < (g (k.ctl.sk i)).refs ∨ (g (k.ctl.sk i)).reaping = true ∨ (k.ctl.phase = .waitSink i ∧ k.dthr = some t)))
    (b : ∀ (t : Nat) pc x, (k.sq i).pcs[t]? = some pc → earlyPc pc = some x → Es k.ctl i t x → (x.isStop = true → (g (k.ctl.sk i)).stopSent = true) ∧
      (x.isStop = false → 2 ≤ t → 0 < (g (k.ctl.sk i)).refs))
    (e : ∀ (t : Nat) pc m, k.wq.pcs[t]? = some pc → earlyPc pc = some (.sinkFatal i m) → Ew k.ctl k.dthr t (.sinkFatal i m) →
      (g (k.ctl.sk i)).blocked = false ∧ (g (k.ctl.sk i)).running.any (fun y => !y.isStop) = true) :
    KInv n { k with ctl := { k.ctl with sk := updSink k.ctl.sk i g } } := by
  refine kinv_ctl h ?_ ?_ (fun t pc _ _ g => ⟨g.zero, g.one⟩) ?_ (fun _ _ => id) (Nat.le_refl _) h.own id h.dthr
  · intro j t pc h1 h2 h3
    by_cases e : j = i
    · subst e
      obtain ⟨f1, f2, f3⟩ := a t pc h1 h2 h3
      refine ⟨h3.lt, ?_, ?_, h3.one, ?_⟩
      · simp only [updSink_self]; exact f1
      · simp only [updSink_self]; exact f2
      · simp only [updSink_self]; exact f3
    · refine ⟨h3.lt, ?_, ?_, h3.one, ?_⟩
      · simp only [updSink_ne _ _ e]; exact h3.des
      · simp only [updSink_ne _ _ e]; exact h3.zero
      · simp only [updSink_ne _ _ e]; exact h3.two
  · intro j t pc x h1 h2 h3 _
    by_cases e : j = i
    · subst e
      obtain ⟨f1, f2⟩ := b t pc x h1 h2 h3
      refine ⟨fun hx => ⟨?_, (h3.stop hx).2⟩, h3.send, ?_, h3.call⟩
      · simp only [updSink_self]; exact f1 hx
      · simp only [updSink_self]; exact f2
    · refine ⟨fun hx => ⟨?_, (h3.stop hx).2⟩, h3.send, ?_, h3.call⟩
      · simp only [updSink_ne _ _ e]; exact (h3.stop hx).1
      · simp only [updSink_ne _ _ e]; exact h3.refs
  · intro t pc x h1 h2 h3
    refine ⟨h3.remove, ?_, h3.clear, h3.done, h3.dtor⟩
    intro j m hx
    by_cases ej : j = i
    · subst ej
      subst hx
      obtain ⟨f1, f2⟩ := e t pc m h1 h2 h3
      simp only [updSink_self]
      exact ⟨(h3.fatal _ _ rfl).1, f1, f2⟩
    · simp only [updSink_ne _ _ ej]
      exact h3.fatal j m hx

/-- A thread begins to push into the worker's queue. -/
theorem sim_enter (h : KInv n k) {t : Nat} {x : KTask M} (ht : 2 ≤ t) (hx : isEnd x = false) (hs : k.enter t x = some k')
    (he : Ew k.ctl k.dthr t x) (hr : ∀ i m, x = .sinkFatal i m → k.raising i = false) : SimTo n k k' none := by
  obtain ⟨q, hq, rfl⟩ := Option.map_eq_some_iff.1 hs
  refine sim_none ⟨kinv_call h ht hq he hr, (abs_wq ?_)⟩
  rw [view_call_push isEnd_eq (by omega) hq, hx]
  simp

/-- `~Sink` begins. -/
theorem stop_begins (h : KInv n k) {t i : Nat} {b : Bool} (ht : t ≠ 0) (hs : k.stopSink t i b = some k') (hi : i < k.ctl.n) (hd : (k.ctl.sk i).destroyed = false)
    (h1 : t = 1 → k.ctl.wpc = .rmWait i ∨ ∃ f, k.ctl.wpc = .clrWait i f) (h2 : 2 ≤ t → b = true ∨ (k.ctl.phase = .waitSink i ∧ k.dthr = some t)) :
    KInv n k' ∧ abs k' = { abs k with sk := updSink (abs k).sk i fun y => { y.stop with reaping := b || y.reaping } } := by
  simp only [KState.stopSink] at hs
  obtain ⟨q, hq, rfl⟩ := Option.map_eq_some_iff.1 hs
  have k1 : KInv n { k with ctl := { k.ctl with sk := updSink k.ctl.sk i fun x => { x with stopSent := true, reaping := b || x.reaping } } } := by
    refine kinv_sk h ?_ ?_ ?_
    · intro u pc _ _ g
      refine ⟨g.des, g.zero, fun hu => ?_⟩
      rcases g.two hu with g | g | g
      · exact Or.inl g
      · exact Or.inr (Or.inl (by simp [g]))
      · exact Or.inr (Or.inr g)
    · intro u pc x _ _ g
      exact ⟨fun _ => rfl, g.refs⟩
    · intro u pc m _ _ g
      exact (g.fatal i m rfl).2
  constructor
  · refine kinv_scall k1 ht hq ⟨hi, ?_, ?_, ?_, ?_⟩ ⟨?_, ?_, ?_, ?_⟩
    · simp only [updSink_self]; exact hd
    · intro e; exact absurd e ht
    · intro e; exact Or.inr (h1 e)
    · intro e
      rcases h2 e with e | e
      · refine Or.inr (Or.inl ?_); simp only [updSink_self]; simp [e]
      · exact Or.inr (Or.inr e)
    · intro _
      exact ⟨by simp only [updSink_self], h1⟩
    · intro e; cases e
    · intro e; cases e
    · intro e; cases e
  · refine wext rfl rfl rfl rfl rfl rfl ?_ rfl rfl rfl rfl rfl
    refine sk_cq (k := k) (i := i) (q := q) (g := fun x => { x with stopSent := true, reaping := b || x.reaping }) (f := fun y => { y.stop with reaping := b || y.reaping }) ?_
    have : sView q = sView (k.sq i) ++ [.stop] := by
      have := view_call_push isStop_eq ht hq
      simpa [sView, SItem.isStop] using this
    rw [this]
    rfl

theorem live (hu : k.ctl.ub = false) (hd : k.ctl.wpc.isDead = false) : ¬ ((abs k).ub = true ∨ (abs k).wpc.isDead = true) := by
  rintro (e | e)
  · exact absurd e (by rw [show (abs k).ub = k.ctl.ub from rfl, hu]; simp)
  · exact absurd e (by rw [show (abs k).wpc = k.ctl.wpc from rfl, hd]; simp)

theorem kinv_ub (h : KInv n k) : KInv n { k with ctl := { k.ctl with ub := true } } :=
  kinv_ctl h (fun i t pc _ _ g => ⟨g.lt, g.des, g.zero, g.one, g.two⟩) (fun i t pc x _ _ g _ => ⟨g.stop, g.send, g.refs, g.call⟩) (fun t pc _ _ g => ⟨g.zero, g.one⟩)
    (fun t pc x _ _ g => ⟨g.remove, g.fatal, g.clear, g.done, g.dtor⟩) (fun _ _ => id) (Nat.le_refl _) h.own id h.dthr

theorem kinv_calls (h : KInv n k) {c : List WCall} {f : List Nat} (hc : c.length = k.ctl.calls.length) : KInv n { k with ctl := { k.ctl with calls := c, failed := f } } :=
  kinv_ctl h (fun i t pc _ _ g => ⟨g.lt, g.des, g.zero, g.one, g.two⟩) (fun i t pc x _ _ g _ => ⟨g.stop, g.send, g.refs, g.call⟩) (fun t pc _ _ g => ⟨g.zero, g.one⟩)
    (fun t pc x _ _ g => ⟨g.remove, g.fatal, g.clear, g.done, g.dtor⟩) (fun _ _ => id) (Nat.le_refl _) (h.own.trans hc.symm) id h.dthr

theorem out_lt (h : KInv n k) {t : Nat} (ho : k.out t = true) : t < n := by
  have := lt_of_pc (out_get ho).1
  rw [h.wq.len] at this
  exact this

/-- A call that finds no worker. -/
theorem kinv_nocall (h : KInv n k) {c : WCall} {t : Nat} (ht : 2 ≤ t) (hn : t < n) : KInv n { k with ctl := { k.ctl with calls := k.ctl.calls ++ [c] }, own := k.own ++ [t] } :=
  { wq := h.wq, sq := h.sq, wni := fun t pc h1 h2 => ⟨(h.wni t pc h1 h2).zero, (h.wni t pc h1 h2).one⟩,
    we := fun t pc x h1 h2 => have g := h.we t pc x h1 h2; ⟨g.remove, g.fatal, g.clear, g.done, g.dtor⟩
    uniq := h.uniq, pend := h.pend, dthr := h.dthr, dtwo := h.dtwo, hand := h.hand
    sni := fun i t pc h1 h2 => have g := h.sni i t pc h1 h2; ⟨g.lt, g.des, g.zero, g.one, g.two⟩
    se := fun i t pc x h1 h2 => have g := h.se i t pc x h1 h2; ⟨g.stop, g.send, g.refs, g.call⟩
    fresh := h.fresh, own := by simp [h.own]
    two := fun u hu => by
      rcases List.mem_append.1 hu with hu | hu
      · exact h.two u hu
      · simp at hu; omega
    uaf := h.uaf }

/-- A new sink. -/
theorem kinv_new (h : KInv n k) : KInv n { k with ctl := { k.ctl with n := k.ctl.n + 1, sk := updSink k.ctl.sk k.ctl.n (fun _ => .fresh) } } := by
  refine kinv_ctl h ?_ ?_ (fun t pc _ _ g => ⟨g.zero, g.one⟩) ?_ (fun _ _ => id) (Nat.le_succ _) h.own id h.dthr
  · intro j t pc h1 h2 g
    have e : j ≠ k.ctl.n := fun e => by have := g.lt; omega
    exact ⟨Nat.lt_succ_of_lt g.lt, by simp only [updSink_ne _ _ e]; exact g.des, by simp only [updSink_ne _ _ e]; exact g.zero, g.one, by simp only [updSink_ne _ _ e]; exact g.two⟩
  · intro j t pc x h1 h2 g g'
    have e : j ≠ k.ctl.n := fun e => by have := g'.lt; omega
    exact ⟨by simp only [updSink_ne _ _ e]; exact g.stop, g.send, by simp only [updSink_ne _ _ e]; exact g.refs, g.call⟩
  · intro t pc x h1 h2 g
    refine ⟨fun i hi => Nat.lt_succ_of_lt (g.remove i hi), ?_, g.clear, g.done, g.dtor⟩
    intro i m hx
    have g := g.fatal i m hx
    have e : i ≠ k.ctl.n := fun e => by omega
    simp only [updSink_ne _ _ e]
    exact ⟨Nat.lt_succ_of_lt g.1, g.2⟩

/-- Nothing is in the queue of a sink that does not exist yet. -/
theorem view_new (h : KInv n k) {i : Nat} (hi : k.ctl.n ≤ i) : sView (k.sq i) = [] := by
  have idle : ∀ (t : Nat) pc, (k.sq i).pcs[t]? = some pc → pc = .idle := by
    intro t pc hp
    apply idle_of
    cases hb : pc.isIdle
    · have := (h.sni i t pc hp hb).lt; omega
    · rfl
  have h1 : popd (k.sq i) = [] := by
    unfold popd
    split
    · next p hp => rw [idle 0 p hp]; rfl
    · rfl
  have h2 : tot (earlyEnd SItem.isStop) (k.sq i).pcs = 0 := by
    by_contra hc
    obtain ⟨t, p, x, e1, e2, _⟩ := early_pos (e := SItem.isStop) (l := (k.sq i).pcs) (by omega)
    rw [idle t p e1] at e2; cases e2
  unfold sView qView
  rw [h1, h2, h.fresh i hi]
  rfl

theorem sk_new (h : KInv n k) : (fun j => { updSink k.ctl.sk k.ctl.n (fun _ => .fresh) j with q := sView (k.sq j) }) = updSink (abs k).sk k.ctl.n (fun _ => .fresh) := by
  refine sk_c (k := k) (i := k.ctl.n) (g := fun _ => .fresh) (f := fun _ => .fresh) ?_
  rw [view_new h (Nat.le_refl _)]
  rfl

theorem ew_plain {c : WState M} {d : Option Nat} {t : Nat} {x : KTask M} (hd : d ≠ some t) (h1 : ∀ i, x = .remove i → i < c.n)
    (h2 : ∀ i m, x ≠ .sinkFatal i m) (h3 : x ≠ .dtorClear) (h4 : x ≠ .done) : Ew c d t x :=
  ⟨h1, fun i m e => absurd e (h2 i m), fun e => absurd e h3, fun e => absurd e h4, fun e => absurd e hd⟩

/-- Messages and calls begin. -/
theorem sim_begin (h : KInv n k) (hu : k.ctl.ub = false) (hd : k.ctl.wpc.isDead = false) {t : Nat} {l : WLabel M}
    (hl : (∃ m, l = .save m ∨ l = .fatal m) ∨ l = .add ∨ l = .clear ∨ ∃ i, l = .remove i) (hs : k.act t l = some k') : SimTo n k k' (if k.ctl.phase.bgNull then some l else none) := by
  have lv := live hu hd
  have ub : ∀ l, wStep (abs k) l = some { abs k with ub := true } → k.ctl.phase.bgNull = true →
      SimTo n k { k with ctl := { k.ctl with ub := true } } (if k.ctl.phase.bgNull then some l else none) := fun l hl hb => by rw [if_pos hb]; exact sim_one ⟨kinv_ub h, hl⟩
  have nb : k.ctl.phase = .returned → k.ctl.phase.bgNull = true := fun e => by rw [e]; rfl
  rcases hl with ⟨m, rfl | rfl⟩ | rfl | rfl | ⟨i, rfl⟩
  · simp only [KState.act] at hs
    split at hs
    · cases hs
    · next hf =>
      obtain ⟨f1, f2, f3⟩ := free_get (Bool.of_not_eq_false hf)
      split at hs
      · next hb => cases hs; exact ub (.save m) (by simp only [wStep, if_neg lv]; rw [show (abs k).phase = k.ctl.phase from rfl, if_pos hb]) hb
      · next hb => rw [if_neg hb]; exact sim_enter h f1 rfl hs (ew_plain f3 (by simp) (by simp) (by simp) (by simp)) (by simp)
  · simp only [KState.act] at hs
    split at hs
    · cases hs
    · next hf =>
      obtain ⟨f1, f2, f3⟩ := free_get (Bool.of_not_eq_false hf)
      split at hs
      · next hb => cases hs; exact ub (.fatal m) (by simp only [wStep, if_neg lv]; rw [show (abs k).phase = k.ctl.phase from rfl, if_pos hb]) hb
      · next hb => rw [if_neg hb]; exact sim_enter h f1 rfl hs (ew_plain f3 (by simp) (by simp) (by simp) (by simp)) (by simp)
  · simp only [KState.act] at hs
    split at hs
    · cases hs
    · next hf =>
      obtain ⟨f1, f2, f3⟩ := free_get (Bool.of_not_eq_false hf)
      unfold KState.beginAdd at hs
      split at hs
      · next hb => cases hs; exact ub .add (by simp only [wStep, if_neg lv, addStep]; rw [show (abs k).phase = k.ctl.phase from rfl, if_pos hb]) (nb hb)
      · next hb =>
        split at hs
        · next hg =>
          cases hs
          rw [if_pos hg]
          refine sim_one ⟨kinv_nocall (kinv_new h) f1 (out_lt h f2), ?_⟩
          simp only [wStep, if_neg lv, addStep, beginCall]
          rw [show (abs k).phase = k.ctl.phase from rfl, if_neg hb]
          simp only [if_neg hb, if_pos hg]
          congr 1
          exact wext rfl rfl rfl rfl rfl rfl (sk_new h).symm rfl rfl rfl rfl rfl
        · next hg => rw [if_neg hg]; exact sim_enter h f1 rfl hs (ew_plain f3 (by simp) (by simp) (by simp) (by simp)) (by simp)
  · simp only [KState.act] at hs
    split at hs
    · cases hs
    · next hf =>
      obtain ⟨f1, f2, f3⟩ := free_get (Bool.of_not_eq_false hf)
      unfold KState.beginCall at hs
      split at hs
      · next hb => cases hs; exact ub .clear (by simp only [wStep, if_neg lv, beginCall]; rw [show (abs k).phase = k.ctl.phase from rfl, if_pos hb]) (nb hb)
      · next hb =>
        split at hs
        · next hg =>
          cases hs
          rw [if_pos hg]
          refine sim_one ⟨kinv_nocall h f1 (out_lt h f2), ?_⟩
          simp only [wStep, if_neg lv, beginCall]
          rw [show (abs k).phase = k.ctl.phase from rfl, if_neg hb, if_pos hg]
          rfl
        · next hg => rw [if_neg hg]; exact sim_enter h f1 rfl hs (ew_plain f3 (by simp) (by simp) (by simp) (by simp)) (by simp)
  · simp only [KState.act] at hs
    split at hs
    · next hf =>
      obtain ⟨hf, hi⟩ := hf
      obtain ⟨f1, f2, f3⟩ := free_get hf
      have hi' : i < (abs k).n := hi
      unfold KState.beginCall at hs
      split at hs
      · next hb =>
        cases hs
        exact ub (.remove i) (by simp only [wStep, if_neg lv, beginCall, if_pos hi']; rw [show (abs k).phase = k.ctl.phase from rfl, if_pos hb]) (nb hb)
      · next hb =>
        split at hs
        · next hg =>
          cases hs
          rw [if_pos hg]
          refine sim_one ⟨kinv_nocall h f1 (out_lt h f2), ?_⟩
          simp only [wStep, if_neg lv, beginCall, if_pos hi']
          rw [show (abs k).phase = k.ctl.phase from rfl, if_neg hb, if_pos hg]
          rfl
        · next hg => rw [if_neg hg]; exact sim_enter h f1 rfl hs (ew_plain f3 (by intro j e; cases e; exact hi) (by simp) (by simp) (by simp)) (by simp)
    · cases hs

/-- A client gives up a reference: the rest of the step. -/
theorem sim_drop {k1 : KState M} (h1 : KInv n k1) {t i : Nat} (ht : 2 ≤ t) (hs : k1.drop t i = some k') (hi : i < k1.ctl.n)
    (hd : (k1.ctl.sk i).destroyed = false) : KInv n k' ∧ abs k' = clientDrop (abs k1) i := by
  unfold KState.drop at hs
  unfold clientDrop
  rw [show owned (abs k1) i = owned k1.ctl i from rfl]
  split at hs
  · next ho => cases hs; rw [if_pos ho]; exact ⟨h1, rfl⟩
  · next ho =>
    rw [if_neg ho]
    exact stop_begins h1 (by omega) hs hi hd (by omega) (fun _ => Or.inl rfl)

theorem adding_of {calls : List WCall} {c : Nat} {w : WCall} {i : Nat} (h : calls[c]? = some w) (hr : w.returned = false) (hk : w.kind = .add i) : adding calls i = true := by
  unfold adding
  exact List.any_eq_true.2 ⟨w, List.mem_of_getElem? h, by simp [hr, hk]⟩

/-- Calls return, references come and go. -/
theorem sim_client (h : KInv n k) (A : AllInv (abs k)) (hu : k.ctl.ub = false) (hd : k.ctl.wpc.isDead = false) {t : Nat} {l : WLabel M}
    (hl : (∃ c, l = .ret c) ∨ ∃ i, l = .hold i ∨ (∃ c, l = .holdFail i c ∨ l = .call i c) ∨ l = .release i ∨ l = .reap i) (hs : k.act t l = some k') : SimTo n k k' (lin k (.thr t l)) := by
  have lv := live hu hd
  rcases hl with ⟨c, rfl⟩ | ⟨i, rfl | ⟨c, rfl | rfl⟩ | rfl | rfl⟩
  · simp only [KState.act] at hs
    split at hs
    · cases hs
    · next w hw =>
      have hw' : (abs k).calls[c]? = some w := hw
      split at hs
      · next hc =>
        obtain ⟨c1, c2, c3, c4⟩ := hc
        have ht : 2 ≤ t := (h.two t (List.mem_of_getElem? c1)).1
        have k1 : KInv n { k with ctl := { k.ctl with calls := k.ctl.calls.set c { w with returned := true } } } := kinv_calls h (by simp)
        have hr : w.returned = false ∧ ready (abs k) w = true := ⟨c3, c4⟩
        split at hs
        · next i hk =>
          have hi : i < k.ctl.n := A.w.calls.ids w (List.mem_of_getElem? hw') i (Or.inl hk)
          have hal := alive_ctl A hi (owned_iff.2 (Or.inr (Or.inr (Or.inl (adding_of hw c3 hk)))))
          obtain ⟨g1, g2⟩ := sim_drop k1 ht hs hi hal.2.1
          refine sim_one ⟨g1, ?_⟩
          simp only [wStep, if_neg lv, retStep, hw', if_pos hr, g2]
          rw [hk]
          rfl
        · next hk =>
          cases hs
          refine sim_one ⟨k1, ?_⟩
          simp only [wStep, if_neg lv, retStep, hw', if_pos hr]
          cases hkk : w.kind with
          | add i => exact absurd hkk (hk i)
          | _ => rfl
      · cases hs
  · simp only [KState.act] at hs
    split at hs
    · next hc =>
      cases hs
      obtain ⟨c1, c2, c3⟩ := hc
      refine sim_one ⟨kinv_sk h ?_ ?_ ?_, ?_⟩
      · intro u pc _ _ g
        refine ⟨g.des, g.zero, fun _ => Or.inl (Nat.succ_pos _)⟩
      · intro u pc x _ _ g
        exact ⟨fun e => (g.stop e).1, fun _ _ => Nat.succ_pos _⟩
      · intro u pc m _ _ g
        exact (g.fatal i m rfl).2
      · have : i < (abs k).n ∧ owned (abs k) i = true := ⟨c2, c3⟩
        simp only [wStep, if_neg lv, if_pos this]
        congr 1
        exact wext rfl rfl rfl rfl rfl rfl (sk_c (k := k) (i := i) (g := fun x => { x with refs := x.refs + 1 }) (f := fun x => { x with refs := x.refs + 1 }) rfl).symm rfl rfl rfl rfl rfl
    · cases hs
  · simp only [KState.act] at hs
    split at hs
    · next hc =>
      cases hs
      obtain ⟨c1, c2, c3⟩ := hc
      refine sim_one ⟨kinv_calls h rfl, ?_⟩
      have : i < (abs k).n ∧ owned (abs k) i = false := ⟨c2, c3⟩
      simp only [wStep, if_neg lv, if_pos this]
      rfl
    · cases hs
  · simp only [KState.act] at hs
    split at hs
    · next hc =>
      obtain ⟨c1, c2, c3⟩ := hc
      obtain ⟨f1, f2, f3⟩ := free_get c1
      have hal := alive_ctl A c2 (owned_iff.2 (Or.inl c3))
      obtain ⟨q, hq, rfl⟩ := Option.map_eq_some_iff.1 hs
      refine sim_none ⟨kinv_scall h (by omega) hq ⟨c2, hal.2.1, fun e => by omega, fun e => by omega, fun _ => Or.inl c3⟩ ⟨fun e => (by cases e), fun _ e => (by omega), fun _ _ => c3, fun _ _ => ⟨c, rfl⟩⟩, (abs_sq ?_)⟩
      have := view_call_push (z := SItem.stop) isStop_eq (by omega) hq
      simpa [sView, SItem.isStop] using this
    · cases hs
  · simp only [KState.act] at hs
    split at hs
    · next hc =>
      obtain ⟨c1, c2, c3, c4⟩ := hc
      obtain ⟨f1, f2, f3⟩ := free_get c1
      have hal := alive_ctl A c2 (owned_iff.2 (Or.inl c3))
      have k1 : KInv n { k with ctl := { k.ctl with sk := updSink k.ctl.sk i fun x => { x with refs := x.refs - 1 } } } := by
        refine kinv_sk h ?_ ?_ ?_
        · intro u pc p1 p2 g
          refine ⟨g.des, g.zero, fun hu => ?_⟩
          left
          show 0 < (k.ctl.sk i).refs - 1
          by_contra hz
          have := not_calling (c4 (by omega)) hu p1
          rw [this] at p2; cases p2
        · intro u pc x p1 p2 g
          refine ⟨fun e => (g.stop e).1, fun _ hu => ?_⟩
          show 0 < (k.ctl.sk i).refs - 1
          by_contra hz
          have := not_calling (c4 (by omega)) hu p1
          rw [this] at p2; cases p2
        · intro u pc m _ _ g
          exact (g.fatal i m rfl).2
      obtain ⟨g1, g2⟩ := sim_drop k1 f1 hs c2 (by simp only [updSink_self]; exact hal.2.1)
      refine sim_one ⟨g1, ?_⟩
      have : i < (abs k).n ∧ 0 < ((abs k).sk i).refs := ⟨c2, c3⟩
      simp only [wStep, if_neg lv, if_pos this, g2]
      congr 2
      exact wext rfl rfl rfl rfl rfl rfl (sk_c (k := k) (i := i) (g := fun x => { x with refs := x.refs - 1 }) (f := fun x => { x with refs := x.refs - 1 }) rfl).symm rfl rfl rfl rfl rfl
    · cases hs
  · simp only [KState.act] at hs
    split at hs
    · next hc =>
      cases hs
      obtain ⟨c1, c2, c3, c4⟩ := hc
      have l1 := (A.w.sinks.loc i).reap c2
      have none : ∀ (u : Nat) pc, (k.sq i).pcs[u]? = some pc → pc.isIdle = false → NIs k.ctl k.dthr i u → False := by
        intro u pc p1 p2 g
        by_cases h0 : u = 0
        · have := (g.zero h0).2; rw [c3] at this; cases this
        by_cases h1 : u = 1
        · have hw : waitsOn (abs k) i = true → False := by
            intro hw
            have := (A.w.sinks.waits i hw).2.2.2
            rw [show ((abs k).sk i).reaping = (k.ctl.sk i).reaping from rfl, c2] at this; cases this
          rcases g.one h1 with ⟨x, r, e1, e2⟩ | e | ⟨f, e⟩
          · have := alive_ctl A c1 (owned_iff.2 (Or.inr (Or.inl e2)))
            rw [c3] at this; cases this.2.2.1
          · exact hw (by simp [waitsOn, show (abs k).wpc = k.ctl.wpc from rfl, e, pcWaits])
          · exact hw (by simp [waitsOn, show (abs k).wpc = k.ctl.wpc from rfl, e, pcWaits])
        · have := not_calling c4 (by omega) p1
          rw [this] at p2; cases p2
      refine sim_one ⟨kinv_sk h ?_ ?_ ?_, ?_⟩
      · intro u pc p1 p2 g; exact (none u pc p1 p2 g).elim
      · intro u pc x p1 p2 g; exact (none u pc p1 (early_busy p2) (h.sni i u pc p1 (early_busy p2))).elim
      · intro u pc m _ _ g
        exact (g.fatal i m rfl).2
      · have : i < (abs k).n ∧ ((abs k).sk i).reaping = true ∧ ((abs k).sk i).exited = true := ⟨c1, c2, c3⟩
        simp only [wStep, if_neg lv, if_pos this]
        congr 1
        exact wext rfl rfl rfl rfl rfl rfl (sk_c (k := k) (i := i) (g := fun x => { x with destroyed := true, reaping := false })
          (f := fun x => { x with destroyed := true, reaping := false }) rfl).symm rfl rfl rfl rfl rfl
    · cases hs

/-- Everything but the queues, the owners and the places of threads. -/
theorem kinv_plain (h : KInv n k) {c : WState M} (h1 : c.n = k.ctl.n) (h2 : c.sk = k.ctl.sk) (h3 : c.calls = k.ctl.calls) (h4 : c.phase = k.ctl.phase)
    (h5 : ∀ (t : Nat) pc, k.wq.pcs[t]? = some pc → pc.isIdle = false → t = 0 → c.wpc = .idle)
    (h6 : ∀ x, k.hand = some x → c.wpc = .idle)
    (h7 : ∀ i pc, (k.sq i).pcs[(1 : Nat)]? = some pc → pc = .idle ∨ k.ctl.n ≤ i) : KInv n { k with ctl := c } := by
  refine kinv_ctl h ?_ ?_ ?_ ?_ (fun x hx _ => h6 x hx) (by omega) (by rw [h3]; exact h.own) (by rw [h4]; exact id) (by rw [h4]; exact h.dthr)
  · intro i t pc e1 e2 g
    refine ⟨by rw [h1]; exact g.lt, by rw [h2]; exact g.des, by rw [h2]; exact g.zero, ?_, by rw [h2, h4]; exact g.two⟩
    intro e
    subst e
    rcases h7 i pc e1 with e | e
    · rw [e] at e2; cases e2
    · exact absurd g.lt (by omega)
  · intro i t pc x e1 e2 g g'
    have : t ≠ 1 := by
      intro e; subst e
      rcases h7 i pc e1 with e | e
      · rw [e] at e2; cases e2
      · exact absurd g'.lt (by omega)
    exact ⟨fun hx => ⟨by rw [h2]; exact (g.stop hx).1, fun e => absurd e this⟩, fun _ e => absurd e this, by rw [h2]; exact g.refs, g.call⟩
  · intro t pc e1 e2 g
    exact ⟨fun e => ⟨h5 t pc e1 e2 e, (g.zero e).2⟩, g.one⟩
  · intro t pc x e1 e2 g
    exact ⟨by rw [h1]; exact g.remove, by rw [h1, h2]; exact g.fatal, by rw [h4]; exact g.clear, by rw [h4]; exact g.done, g.dtor⟩

theorem out_one (ho : k.out 1 = true) : ∀ i pc, (k.sq i).pcs[(1 : Nat)]? = some pc → pc = .idle ∨ k.ctl.n ≤ i := by
  intro i pc hp
  by_cases hi : i < k.ctl.n
  · have := (out_get ho).2 i hi
    rw [hp] at this; cases this; exact Or.inl rfl
  · exact Or.inr (by omega)

/-- The worker thread is busy with a task, not in its queue. -/
theorem kbusy (h : KInv n k) (hw : k.ctl.wpc ≠ .idle) : k.hand = none ∧ ∀ (t : Nat) pc, k.wq.pcs[t]? = some pc → pc.isIdle = false → t ≠ 0 := by
  constructor
  · cases hh : k.hand with
    | none => rfl
    | some x => exact absurd (h.hand x hh) hw
  · intro t pc h1 h2 e
    exact hw ((h.wni t pc h1 h2).zero e).1

/-- The worker thread goes on, without touching sinks. -/
theorem kinv_go (h : KInv n k) (ho : k.out 1 = true) (hw : k.ctl.wpc ≠ .idle) {c : WState M} (h1 : c.n = k.ctl.n) (h2 : c.sk = k.ctl.sk) (h3 : c.calls = k.ctl.calls)
    (h4 : c.phase = k.ctl.phase) : KInv n { k with ctl := c } := by
  obtain ⟨b1, b2⟩ := kbusy h hw
  exact kinv_plain h h1 h2 h3 h4 (fun t pc e1 e2 e => absurd e (b2 t pc e1 e2)) (fun x hx => by rw [b1] at hx; cases hx) (out_one ho)

/-- The worker thread takes a task. -/
theorem take_abs {x : KTask M} {c : WState M} (hh : k.hand = some x) (ht : takeTask { k.ctl with wq := [x.task] } = some c) :
    takeTask (abs k) = some (abs { k with ctl := c, hand := none }) ∧ c.n = k.ctl.n ∧ c.sk = k.ctl.sk ∧ c.calls = k.ctl.calls ∧ c.phase = k.ctl.phase := by
  have hq : (abs k).wq = x.task :: (qView isEnd .done k.wq).map KTask.task := by simp [abs, wView, hh]
  have own : ∀ i, owned (abs k) i = owned { k.ctl with wq := [x.task] } i := fun i => rfl
  unfold takeTask at ht ⊢
  rw [hq]
  simp only at ht
  cases hx : x.task with
  | save m =>
    rw [hx] at ht
    simp only at ht ⊢
    rw [show (abs k).att = k.ctl.att from rfl]
    split at ht
    · next ha => cases ht; rw [if_pos ha]; exact ⟨rfl, rfl, rfl, rfl, rfl⟩
    · next ha => cases ht; rw [if_neg ha]; exact ⟨rfl, rfl, rfl, rfl, rfl⟩
  | fatal m => rw [hx] at ht; cases ht; exact ⟨rfl, rfl, rfl, rfl, rfl⟩
  | add i => rw [hx] at ht; cases ht; exact ⟨rfl, rfl, rfl, rfl, rfl⟩
  | remove i =>
    rw [hx] at ht
    simp only at ht ⊢
    rw [own i, hx]
    split at ht
    · next ha => cases ht; rw [if_pos ha]; exact ⟨rfl, rfl, rfl, rfl, rfl⟩
    · next ha => cases ht; rw [if_neg ha]; exact ⟨rfl, rfl, rfl, rfl, rfl⟩
  | clear => rw [hx] at ht; cases ht; exact ⟨rfl, rfl, rfl, rfl, rfl⟩
  | done => rw [hx] at ht; cases ht; exact ⟨rfl, rfl, rfl, rfl, rfl⟩

/-- `~Sink` on the worker thread or on the thread of the destructor finishes. -/
theorem kinv_finish (h : KInv n k) {i : Nat} (hx : (k.ctl.sk i).exited = true) (ho : ∀ (t : Nat) pc, t ≠ 0 → (k.sq i).pcs[t]? = some pc → pc.isIdle = false → False) :
    KInv n { k with ctl := { k.ctl with sk := updSink k.ctl.sk i (fun x => { x with destroyed := true }) } } := by
  have none : ∀ (u : Nat) pc, (k.sq i).pcs[u]? = some pc → pc.isIdle = false → NIs k.ctl k.dthr i u → False := by
    intro u pc p1 p2 g
    by_cases h0 : u = 0
    · have := (g.zero h0).2; rw [hx] at this; cases this
    · exact ho u pc h0 p1 p2
  refine kinv_sk h ?_ ?_ ?_
  · intro u pc p1 p2 g; exact (none u pc p1 p2 g).elim
  · intro u pc x p1 p2 g; exact (none u pc p1 (early_busy p2) (h.sni i u pc p1 (early_busy p2))).elim
  · intro u pc m _ _ g
    exact (g.fatal i m rfl).2

theorem abs_destroy {i : Nat} : (fun j => { updSink k.ctl.sk i (fun x => { x with destroyed := true }) j with q := sView (k.sq j) }) =
    updSink (abs k).sk i (fun x => { x with destroyed := true }) :=
  sk_c (k := k) (i := i) (g := fun x => { x with destroyed := true }) (f := fun x => { x with destroyed := true }) rfl

/-- Nobody else is inside the queue of a sink whose destructor runs. -/
theorem others_out (h : KInv n k) (A : AllInv (abs k)) {i : Nat} (hw : waitsOn (abs k) i = true) {t : Nat} {pc : QPc (SItem M)} (ht : 2 ≤ t) (hp : (k.sq i).pcs[t]? = some pc)
    (hb : pc.isIdle = false) : k.ctl.phase = .waitSink i ∧ k.dthr = some t := by
  obtain ⟨w1, w2, w3, w4⟩ := A.w.sinks.waits i hw
  rcases (h.sni i t pc hp hb).two ht with e | e | e
  · have := alive_ctl A w1 (owned_iff.2 (Or.inl e))
    rw [show ((abs k).sk i).stopSent = (k.ctl.sk i).stopSent from rfl, this.1] at w2; cases w2
  · rw [show ((abs k).sk i).reaping = (k.ctl.sk i).reaping from rfl, e] at w4; cases w4
  · exact e

theorem gone_ended (A : AllInv (abs k)) (hg : k.ctl.phase.queueGone = true) : (abs k).wq = [] ∧ k.ctl.wpc = .ended := A.w.book.gone hg

/-- The worker thread. -/
theorem sim_work (h : KInv n k) (A : AllInv (abs k)) (hu : k.ctl.ub = false) (hd : k.ctl.wpc.isDead = false) (hs : k.work = some k') : SimTo n k k' (working k.hand k.ctl.wpc) := by
  have lv := live hu hd
  generalize hl : working k.hand k.ctl.wpc = o
  have go : workStep (abs k) = some (abs k') → wStep (abs k) .work = some (abs k') := by
    intro e
    simp only [wStep, if_neg lv]; exact e
  unfold KState.work at hs
  split at hs
  · cases hs
  next ho =>
  have ho : k.out 1 = true := Bool.of_not_eq_false ho
  split at hs
  · next x hh =>
    obtain ⟨c, hc, rfl⟩ := Option.map_eq_some_iff.1 hs
    obtain ⟨t1, t2, t3, t4, t5⟩ := take_abs hh hc
    have hw : k.ctl.wpc = .idle := h.hand x hh
    rw [show o = some .work by rw [← hl, hh]; rfl]
    refine sim_one ⟨?_, go ?_⟩
    · have k1 : KInv n { k with hand := none } :=
        { wq := h.wq, sq := h.sq, wni := fun t pc h1 h2 => ⟨fun e => ⟨((h.wni t pc h1 h2).zero e).1, rfl⟩, (h.wni t pc h1 h2).one⟩, we := h.we, uniq := h.uniq, pend := h.pend,
          dthr := h.dthr, dtwo := h.dtwo, hand := fun x hx => (by cases hx), sni := h.sni, se := h.se, fresh := h.fresh, own := h.own, two := h.two, uaf := h.uaf }
      refine kinv_plain k1 t2 t3 t4 t5 ?_ (fun x hx => by cases hx) (out_one (k := k) ho)
      intro t pc h1 h2 e
      have := ((h.wni t pc h1 h2).zero e).2
      rw [hh] at this; cases this
    · unfold workStep
      rw [show (abs k).wpc = k.ctl.wpc from rfl, hw]
      exact t1
  · next hh =>
    have one : ∀ i, i < k.ctl.n → (k.sq i).pcs[(1 : Nat)]? = some .idle := (out_get ho).2
    cases hw : k.ctl.wpc with
    | idle => rw [hw] at hs; cases hs
    | sending x r =>
      cases r with
      | cons i r =>
        rw [hw] at hs
        have hs : k.enterSink 1 i x = some k' := by cases x <;> exact hs
        have hia : i ∈ k.ctl.att := (A.w.sinks.rest x (i :: r) hw).1 i (by simp)
        have hi : i < k.ctl.n := att_lt A.w.calls A.w.sinks hia
        have hal := alive_ctl A hi (owned_iff.2 (Or.inr (Or.inl hia)))
        obtain ⟨q, hq, rfl⟩ := Option.map_eq_some_iff.1 hs
        have hx : x.isStop = false := by
          have := A.w.book.task
          rw [show (abs k).wpc = k.ctl.wpc from rfl, hw] at this
          cases x with
          | stop => exact this.elim
          | _ => rfl
        rw [show o = none by rw [← hl, hh, hw]; rfl]
        refine sim_none ⟨kinv_scall h (by omega) hq ⟨hi, hal.2.1, fun e => by omega, fun _ => Or.inl ⟨x, _, hw, hia⟩, fun e => by omega⟩
          ⟨fun e => ?_, fun _ _ => ⟨r, hw⟩, fun _ e => (by omega), fun _ e => (by omega)⟩, (abs_sq ?_)⟩
        · rw [hx] at e; cases e
        · have := view_call_push (z := SItem.stop) isStop_eq (by omega) hq
          rw [hx] at this
          simpa [sView] using this
      | nil =>
        rw [hw] at hs
        cases x with
        | fatal m =>
          cases hs
          rw [show o = some .work by rw [← hl, hw]; cases k.hand <;> rfl]
          refine sim_one ⟨kinv_go h ho (by rw [hw]; simp) rfl rfl rfl rfl, go ?_⟩
          unfold workStep
          rw [show (abs k).wpc = k.ctl.wpc from rfl, hw]
          rfl
        | msg m =>
          cases hs
          rw [show o = some .work by rw [← hl, hw]; cases k.hand <;> rfl]
          refine sim_one ⟨kinv_go h ho (by rw [hw]; simp) rfl rfl rfl rfl, go ?_⟩
          unfold workStep
          rw [show (abs k).wpc = k.ctl.wpc from rfl, hw]
          rfl
        | call m =>
          cases hs
          rw [show o = some .work by rw [← hl, hw]; cases k.hand <;> rfl]
          refine sim_one ⟨kinv_go h ho (by rw [hw]; simp) rfl rfl rfl rfl, go ?_⟩
          unfold workStep
          rw [show (abs k).wpc = k.ctl.wpc from rfl, hw]
          rfl
        | stop =>
          cases hs
          rw [show o = some .work by rw [← hl, hw]; cases k.hand <;> rfl]
          refine sim_one ⟨kinv_go h ho (by rw [hw]; simp) rfl rfl rfl rfl, go ?_⟩
          unfold workStep
          rw [show (abs k).wpc = k.ctl.wpc from rfl, hw]
          rfl
    | rmHeld i =>
      rw [hw] at hs
      simp only at hs
      have hi : i < k.ctl.n := by
        have := A.w.book.task
        rw [show (abs k).wpc = k.ctl.wpc from rfl, hw] at this
        exact A.w.calls.rms i (List.mem_of_getElem? this)
      have hal := alive_ctl A hi (owned_iff.2 (Or.inr (Or.inr (Or.inr (by rw [hw]; simp [WPc.holds])))))
      have ws : workStep (abs k) = if owned { abs k with wpc := .rmWait i } i then some { abs k with wpc := .idle, completed := (abs k).completed + 1 }
          else some { abs k with sk := updSink (abs k).sk i (·.stop), wpc := .rmWait i } := by
        unfold workStep
        rw [show (abs k).wpc = k.ctl.wpc from rfl, hw]
      rw [show owned { abs k with wpc := .rmWait i } i = owned { k.ctl with wpc := .rmWait i } i from rfl] at ws
      split at hs
      · next hc =>
        cases hs
        rw [show o = some .work by rw [← hl, hw]; cases k.hand <;> rfl]
        refine sim_one ⟨kinv_go h ho (by rw [hw]; simp) rfl rfl rfl rfl, go ?_⟩
        rw [ws, if_pos hc]; rfl
      · next hc =>
        have k1 : KInv n { k with ctl := { k.ctl with wpc := .rmWait i } } := kinv_go h ho (by rw [hw]; simp) rfl rfl rfl rfl
        obtain ⟨g1, g2⟩ := stop_begins k1 (by omega) hs hi hal.2.1 (fun _ => Or.inl rfl) (by omega)
        rw [show o = some .work by rw [← hl, hw]; cases k.hand <;> rfl]
        refine sim_one ⟨g1, go ?_⟩
        rw [ws, if_neg hc, g2]
        rfl
    | rmWait i =>
      rw [hw] at hs
      simp only at hs
      split at hs
      · next hx =>
        cases hs
        have hwt : waitsOn (abs k) i = true := by simp [waitsOn, show (abs k).wpc = k.ctl.wpc from rfl, hw, pcWaits]
        have hi := (A.w.sinks.waits i hwt).1
        have k1 := kinv_finish h hx (by
          intro t pc h0 p1 p2
          by_cases h1 : t = 1
          · subst h1; rw [one i hi] at p1; cases p1; cases p2
          · obtain ⟨e, _⟩ := others_out h A hwt (by omega) p1 p2
            have := (gone_ended A (by rw [e]; rfl)).2
            rw [hw] at this; cases this)
        rw [show o = some .work by rw [← hl, hw]; cases k.hand <;> rfl]
        refine sim_one ⟨kinv_go k1 ho (by show k.ctl.wpc ≠ _; rw [hw]; simp) rfl rfl rfl rfl, go ?_⟩
        have hx' : ((abs k).sk i).exited = true := hx
        unfold workStep
        rw [show (abs k).wpc = k.ctl.wpc from rfl, hw]
        simp only [if_pos hx']
        congr 1
        exact wext rfl rfl rfl rfl rfl rfl abs_destroy.symm rfl rfl rfl rfl rfl
      · cases hs
    | clearing f =>
      rw [hw] at hs
      simp only at hs
      cases ha : k.ctl.att with
      | nil =>
        have ws : workStep (abs k) = if f then some { abs k with wpc := .dead } else some { abs k with wpc := .idle, completed := (abs k).completed + 1 } := by
          have ha' : (abs k).att = [] := ha
          unfold workStep
          rw [show (abs k).wpc = k.ctl.wpc from rfl, hw]
          simp only [ha']
        rw [ha] at hs
        simp only at hs
        split at hs
        · next hf =>
          cases hs
          rw [show o = some .work by rw [← hl, hw]; cases k.hand <;> rfl]
          refine sim_one ⟨kinv_go h ho (by rw [hw]; simp) rfl rfl rfl rfl, go ?_⟩
          rw [ws, if_pos hf]; exact congrArg some (wext rfl rfl rfl rfl ha rfl rfl rfl rfl rfl rfl rfl)
        · next hf =>
          cases hs
          rw [show o = some .work by rw [← hl, hw]; cases k.hand <;> rfl]
          refine sim_one ⟨kinv_go h ho (by rw [hw]; simp) rfl rfl rfl rfl, go ?_⟩
          rw [ws, if_neg hf]; exact congrArg some (wext rfl rfl rfl rfl ha rfl rfl rfl rfl rfl rfl rfl)
      | cons i r =>
        have ws : workStep (abs k) = if owned { k.ctl with att := r } i then some { abs k with att := r }
            else some { abs k with att := r, sk := updSink (abs k).sk i (·.stop), wpc := .clrWait i f } := by
          have ha' : (abs k).att = i :: r := ha
          unfold workStep
          rw [show (abs k).wpc = k.ctl.wpc from rfl, hw]
          simp only [ha']
          rw [← hw]
          rfl
        rw [ha] at hs
        simp only at hs
        have hia : i ∈ k.ctl.att := by rw [ha]; simp
        have hi : i < k.ctl.n := att_lt A.w.calls A.w.sinks hia
        have hal := alive_ctl A hi (owned_iff.2 (Or.inr (Or.inl hia)))
        split at hs
        · next hc =>
          cases hs
          rw [show o = some .work by rw [← hl, hw]; cases k.hand <;> rfl]
          refine sim_one ⟨kinv_go h ho (by rw [hw]; simp) rfl rfl rfl rfl, go ?_⟩
          rw [ws, if_pos hc]; rfl
        · next hc =>
          have k1 : KInv n { k with ctl := { k.ctl with att := r, wpc := .clrWait i f } } := kinv_go h ho (by rw [hw]; simp) rfl rfl rfl rfl
          obtain ⟨g1, g2⟩ := stop_begins k1 (by omega) hs hi hal.2.1 (fun _ => Or.inr ⟨f, rfl⟩) (by omega)
          rw [show o = some .work by rw [← hl, hw]; cases k.hand <;> rfl]
          refine sim_one ⟨g1, go ?_⟩
          rw [ws, if_neg hc, g2]
          rfl
    | clrWait i f =>
      rw [hw] at hs
      simp only at hs
      split at hs
      · next hx =>
        cases hs
        have hwt : waitsOn (abs k) i = true := by simp [waitsOn, show (abs k).wpc = k.ctl.wpc from rfl, hw, pcWaits]
        have hi := (A.w.sinks.waits i hwt).1
        have k1 := kinv_finish h hx (by
          intro t pc h0 p1 p2
          by_cases h1 : t = 1
          · subst h1; rw [one i hi] at p1; cases p1; cases p2
          · obtain ⟨e, _⟩ := others_out h A hwt (by omega) p1 p2
            have := (gone_ended A (by rw [e]; rfl)).2
            rw [hw] at this; cases this)
        rw [show o = some .work by rw [← hl, hw]; cases k.hand <;> rfl]
        refine sim_one ⟨kinv_go k1 ho (by show k.ctl.wpc ≠ _; rw [hw]; simp) rfl rfl rfl rfl, go ?_⟩
        have hx' : ((abs k).sk i).exited = true := hx
        unfold workStep
        rw [show (abs k).wpc = k.ctl.wpc from rfl, hw]
        simp only [if_pos hx']
        congr 1
        exact wext rfl rfl rfl rfl rfl rfl abs_destroy.symm rfl rfl rfl rfl rfl
      · cases hs
    | ended => rw [hw] at hs; cases hs
    | dead => rw [hw] at hs; cases hs

/-- The queue of the worker changes. -/
theorem kinv_wqnil (h : KInv n k) (hi : k.wq.pcs[(0 : Nat)]? = some .idle ∨ k.wq.pcs[(0 : Nat)]? = none) : KInv n { k with wq := { k.wq with q := [] } } :=
  { wq :=
      { len := h.wq.len, cons := h.wq.cons, prod := h.wq.prod, lock := h.wq.lock, lt := h.wq.lt
        wake := fun _ => by simp }
    sq := h.sq, wni := h.wni, we := h.we, uniq := h.uniq, pend := h.pend, dthr := h.dthr, dtwo := h.dtwo, hand := h.hand, sni := h.sni, se := h.se, fresh := h.fresh,
    own := h.own, two := h.two, uaf := h.uaf }

/-- The destructor goes on. -/
theorem kinv_phase (h : KInv n k) {p : DPhase} {a : List Nat} {s : List (WTask M)} (h1 : ∀ (t : Nat) pc x, k.wq.pcs[t]? = some pc → earlyPc pc = some x → x ≠ .dtorClear ∧ x ≠ .done)
    (h2 : p ≠ .notStarted) (h3 : k.dthr ≠ none) (h4 : ∀ i (t : Nat) pc, k.ctl.phase = .waitSink i → k.dthr = some t → (k.sq i).pcs[t]? = some pc → pc = .idle)
    (h5 : a = k.ctl.att ∨ k.ctl.wpc = .ended) : KInv n { k with ctl := { k.ctl with phase := p, att := a, sub := s } } := by
  refine kinv_ctl h ?_ (fun i t pc x _ _ g _ => ⟨g.stop, g.send, g.refs, g.call⟩) (fun t pc _ _ g => ⟨g.zero, g.one⟩) ?_ (fun _ _ => id) (Nat.le_refl _) h.own (fun e => absurd e h2)
    (fun e => absurd e h3)
  · intro i t pc p1 p2 g
    refine ⟨g.lt, g.des, g.zero, fun e => ?_, fun e => ?_⟩
    · rcases h5 with e' | e'
      · rw [e']; exact g.one e
      · exfalso
        rcases g.one e with ⟨x, r, f, _⟩ | f | ⟨b, f⟩ <;> · rw [e'] at f; cases f
    · rcases g.two e with g | g | ⟨g1, g2⟩
      · exact Or.inl g
      · exact Or.inr (Or.inl g)
      · rw [h4 i t pc g1 g2 p1] at p2; cases p2
  · intro t pc x p1 p2 g
    obtain ⟨e1, e2⟩ := h1 t pc x p1 p2
    exact ⟨g.remove, g.fatal, fun e => absurd e e1, fun e => absurd e e2, g.dtor⟩

theorem no_final (h : KInv n k) {t : Nat} (hd : k.dthr = some t) (ho : k.wq.pcs[t]? = some .idle) :
    ∀ (u : Nat) pc x, k.wq.pcs[u]? = some pc → earlyPc pc = some x → x ≠ .dtorClear ∧ x ≠ .done := by
  intro u pc x h1 h2
  have g := h.we u pc x h1 h2
  constructor
  · intro e
    have := (g.clear e).2
    rw [hd] at this; cases this
    rw [ho] at h1; cases h1; cases h2
  · intro e
    have := (g.done e).2
    rw [hd] at this; cases this
    rw [ho] at h1; cases h1; cases h2

theorem early_none {T : Type} {e : T → Bool} {l : List (QPc T)} (h : ∀ (t : Nat) pc x, l[t]? = some pc → earlyPc pc = some x → e x = false) : tot (earlyEnd e) l = 0 := by
  by_contra hc
  obtain ⟨t, p, x, e1, e2, e3⟩ := early_pos (e := e) (l := l) (by omega)
  rw [h t p x e1 e2] at e3; cases e3

/-- The destructor. -/
theorem sim_dtor (h : KInv n k) (A : AllInv (abs k)) (hu : k.ctl.ub = false) (hd : k.ctl.wpc.isDead = false) {t : Nat} (hs : k.dtor t = some k') : SimTo n k k' (if k.dthr = none then none else some .dtor) := by
  have lv := live hu hd
  have go : dtorStep (abs k) = some (abs k') → wStep (abs k) .dtor = some (abs k') := by
    intro e
    simp only [wStep, if_neg lv]; exact e
  have hph : (abs k).phase = k.ctl.phase := rfl
  unfold KState.dtor at hs
  split at hs
  · next hn =>
    rw [if_pos hn]
    split at hs
    · next hc =>
      obtain ⟨c1, c2⟩ := hc
      obtain ⟨f1, f2, f3⟩ := free_get c2
      obtain ⟨q, hq, rfl⟩ := Option.map_eq_some_iff.1 hs
      refine sim_none ⟨kinv_dtor (k := k) h f1 hq hn c1, ?_⟩
      have : qView isEnd .done q = qView isEnd .done k.wq := by
        rw [view_call_push isEnd_eq (by omega) hq]; simp [isEnd]
      exact abs_wq (k := k) this
    · cases hs
  · next hdn =>
    rw [if_neg hdn]
    split at hs
    · next hc =>
      obtain ⟨c1, c2⟩ := hc
      have ht := (h.dtwo t c1).1
      have hout := out_get c2
      have nf := no_final h c1 hout.1
      have dn : k.dthr ≠ none := by rw [c1]; simp
      cases hp : k.ctl.phase with
      | notStarted => rw [hp] at hs; cases hs
      | clearing p =>
        rw [hp] at hs
        simp only at hs
        split at hs
        · next hlt =>
          have k1 : KInv n { k with ctl := { k.ctl with sub := k.ctl.sub ++ [WTask.done], phase := .stopping } } :=
            kinv_phase h nf (by simp) dn (fun i u pc e => by rw [hp] at e; cases e) (Or.inl rfl)
          obtain ⟨q, hq, rfl⟩ := Option.map_eq_some_iff.1 hs
          refine sim_one ⟨kinv_call k1 ht hq ⟨fun i e => (by cases e), fun i m e => (by cases e), fun e => (by cases e), fun _ => ⟨rfl, c1⟩, fun _ => Or.inr rfl⟩ (fun i m e => by cases e),
            go ?_⟩
          have hlt' : p < (abs k).completed := hlt
          unfold dtorStep
          rw [hph, hp]
          simp only [if_pos hlt']
          congr 1
          have : qView isEnd .done q = qView isEnd .done k.wq ++ [.done] := by
            rw [view_call_push isEnd_eq (by omega) hq]; simp [isEnd]
          refine wext ?_ rfl rfl rfl rfl rfl rfl rfl rfl rfl rfl rfl
          simp [pushTask, abs, wView, this, KTask.task]
        · cases hs
      | stopping =>
        rw [hp] at hs
        simp only at hs
        split at hs
        · next he =>
          cases hs
          have hw : k.ctl.wpc = .ended := by
            cases hw : k.ctl.wpc <;> rw [hw] at he <;> first | rfl | cases he
          obtain ⟨b1, b2⟩ := kbusy h (by rw [hw]; simp)
          have z : k.wq.pcs[(0 : Nat)]? = some .idle ∨ k.wq.pcs[(0 : Nat)]? = none := by
            cases hz : k.wq.pcs[(0 : Nat)]? with
            | none => exact Or.inr rfl
            | some pc =>
              cases hb : pc.isIdle with
              | true => rw [idle_of hb]; exact Or.inl rfl
              | false => exact absurd rfl (b2 0 pc hz hb)
          have k1 := kinv_wqnil h z
          refine sim_one ⟨kinv_phase (k := { k with wq := { k.wq with q := [] } }) (p := .dropping) (a := k.ctl.att) (s := k.ctl.sub) k1 nf (by simp) dn
            (fun i u pc e => by rw [show _ = k.ctl.phase from rfl, hp] at e; cases e) (Or.inl rfl), go ?_⟩
          have he' : (abs k).wpc.isEnded = true := he
          unfold dtorStep
          rw [hph, hp]
          simp only [if_pos he']
          congr 1
          refine wext ?_ rfl rfl rfl rfl rfl rfl rfl rfl rfl rfl rfl
          have e0 : tot (earlyEnd isEnd) k.wq.pcs = 0 := early_none (fun u pc x e1 e2 => by
            cases hx : isEnd x with
            | false => rfl
            | true => exact absurd (isEnd_eq x hx) (nf u pc x e1 e2).2)
          have e1 : popd { k.wq with q := [] } = [] := by
            rcases z with z | z
            · rw [popd_eq (s := { k.wq with q := [] }) z]; rfl
            · unfold popd; simp only [z]
          simp only [abs, wView, b1, qView, e1, e0]
          rfl
        · cases hs
      | dropping =>
        rw [hp] at hs
        simp only at hs
        have hw : k.ctl.wpc = .ended := (gone_ended A (by rw [hp]; rfl)).2
        cases ha : k.ctl.att with
        | nil =>
          rw [ha] at hs
          cases hs
          refine sim_one ⟨kinv_phase (p := .returned) (a := []) (s := k.ctl.sub) h nf (by simp) dn (fun i u pc e => by rw [hp] at e; cases e) (Or.inl ha.symm), go ?_⟩
          have ha' : (abs k).att = [] := ha
          unfold dtorStep
          rw [hph, hp]
          simp only [ha']
          exact congrArg some (wext rfl rfl rfl rfl rfl rfl rfl rfl rfl rfl rfl rfl)
        | cons i r =>
          have hia : i ∈ k.ctl.att := by rw [ha]; simp
          have hi : i < k.ctl.n := att_lt A.w.calls A.w.sinks hia
          have hal := alive_ctl A hi (owned_iff.2 (Or.inr (Or.inl hia)))
          have ws : dtorStep (abs k) = if owned { k.ctl with att := r } i then some { abs k with att := r }
              else some { abs k with att := r, sk := updSink (abs k).sk i (·.stop), phase := .waitSink i } := by
            have ha' : (abs k).att = i :: r := ha
            unfold dtorStep
            rw [hph, hp]
            simp only [ha']
            rw [← hp]
            rfl
          rw [ha] at hs
          simp only at hs
          split at hs
          · next hc =>
            cases hs
            refine sim_one ⟨kinv_phase (p := k.ctl.phase) (a := r) (s := k.ctl.sub) h nf (by rw [hp]; simp) dn (fun i u pc e => by rw [hp] at e; cases e) (Or.inr hw), go ?_⟩
            rw [ws, if_pos hc]
            rfl
          · next hc =>
            have k1 : KInv n { k with ctl := { k.ctl with att := r, phase := .waitSink i } } :=
              kinv_phase (p := .waitSink i) (a := r) (s := k.ctl.sub) h nf (by simp) dn (fun i u pc e => by rw [hp] at e; cases e) (Or.inr hw)
            obtain ⟨g1, g2⟩ := stop_begins k1 (by omega) hs hi hal.2.1 (by omega) (fun _ => Or.inr ⟨rfl, c1⟩)
            refine sim_one ⟨g1, go ?_⟩
            rw [ws, if_neg hc, g2]
            rfl
      | waitSink i =>
        rw [hp] at hs
        simp only at hs
        have hw : k.ctl.wpc = .ended := (gone_ended A (by rw [hp]; rfl)).2
        split at hs
        · next hx =>
          cases hs
          have hwt : waitsOn (abs k) i = true := by simp [waitsOn, hph, hp, phaseWaits]
          have hi := (A.w.sinks.waits i hwt).1
          have k1 := kinv_finish h hx (by
            intro u pc h0 p1 p2
            by_cases h1 : u = 1
            · rcases (h.sni i u pc p1 p2).one h1 with ⟨x, r, f, _⟩ | f | ⟨b, f⟩ <;> · rw [hw] at f; cases f
            · obtain ⟨_, e⟩ := others_out h A hwt (by omega) p1 p2
              rw [c1] at e
              cases e
              rw [hout.2 i hi] at p1; cases p1; cases p2)
          refine sim_one ⟨kinv_phase (p := .dropping) (a := k.ctl.att) (s := k.ctl.sub) k1 nf (by simp) dn (fun j u pc e e' p1 => ?_) (Or.inl rfl), go ?_⟩
          · rw [show _ = k.ctl.phase from rfl, hp] at e
            cases e
            rw [show _ = k.dthr from rfl, c1] at e'
            cases e'
            rw [show _ = (k.sq i).pcs[t]? from rfl, hout.2 i hi] at p1
            cases p1; rfl
          have hx' : ((abs k).sk i).exited = true := hx
          unfold dtorStep
          rw [hph, hp]
          simp only [if_pos hx']
          congr 1
          exact wext rfl rfl rfl rfl rfl rfl abs_destroy.symm rfl rfl rfl rfl rfl
        · cases hs
      | returned => rw [hp] at hs; cases hs
    · cases hs

end G3.Props
