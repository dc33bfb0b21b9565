import Verif.Spec.Fork
import Verif.Props.WorkerLocks
/- Lemmas for C102: what stays as it is in a forked child. -/
namespace G3.Props
open G3 G3.Spec

variable {M : Type} {n : Nat} {k0 k k' : KState M} {P : Nat → Prop}

/-- The part of a sink that only its thread changes. -/
def SameWork (a b : SinkSt M) : Prop := a.done = b.done ∧ a.running = b.running ∧ a.exited = b.exited

/-- In the child. -/
structure Child (k0 : KState M) (P : Nat → Prop) (k : KState M) : Prop where
  comp : k.ctl.completed = k0.ctl.completed
  wpc : k.ctl.wpc = k0.ctl.wpc
  hand : k.hand = k0.hand
  att : k.ctl.att = k0.ctl.att
  nle : k0.ctl.n ≤ k.ctl.n
  sk : ∀ i, i < k0.ctl.n → SameWork (k.ctl.sk i) (k0.ctl.sk i)
  bg : k.ctl.phase.bgNull = false
  ph : ∀ p, k.ctl.phase = .clearing p → ∀ t, k.dthr = some t → P t → k0.ctl.completed ≤ p
  q : k0.wq.q <+: k.wq.q
  sub : k0.ctl.sub <+: k.ctl.sub
  len : k0.ctl.calls.length ≤ k.ctl.calls.length
  old : ∀ c, c < k0.ctl.calls.length → k.ctl.calls[c]? = k0.ctl.calls[c]? ∧ k.own[c]? = k0.own[c]?
  new : ∀ c w, k0.ctl.calls.length ≤ c → k.ctl.calls[c]? = some w → w.returned = false ∧ ∃ p, w.pos = some p ∧ k0.ctl.completed ≤ p
  race : k.race = false

theorem child_keep (h : Child k0 P k) (e1 : k'.ctl.completed = k.ctl.completed) (e2 : k'.ctl.wpc = k.ctl.wpc) (e3 : k'.hand = k.hand) (e4 : k'.ctl.att = k.ctl.att)
    (e5 : k'.ctl.n = k.ctl.n) (e6 : ∀ i, i < k0.ctl.n → SameWork (k'.ctl.sk i) (k.ctl.sk i)) (e7 : k'.ctl.phase = k.ctl.phase) (e8 : k'.dthr = k.dthr)
    (e9 : k'.ctl.calls = k.ctl.calls) (e10 : k'.own = k.own) (e11 : k.wq.q <+: k'.wq.q) (e12 : k'.race = k.race) (e13 : k'.ctl.sub = k.ctl.sub) : Child k0 P k' := by
  refine ⟨e1.trans h.comp, e2.trans h.wpc, e3.trans h.hand, e4.trans h.att, e5 ▸ h.nle, ?_, e7 ▸ h.bg, ?_, h.q.trans e11, e13 ▸ h.sub, e9 ▸ h.len, ?_, ?_, e12.trans h.race⟩
  · intro i hi
    have a := e6 i hi; have b := h.sk i hi
    exact ⟨a.1.trans b.1, a.2.1.trans b.2.1, a.2.2.trans b.2.2⟩
  · rw [e7, e8]; exact h.ph
  · rw [e9, e10]; exact h.old
  · rw [e9]; exact h.new

theorem same_refl (i : Nat) : SameWork (k.ctl.sk i) (k.ctl.sk i) := ⟨rfl, rfl, rfl⟩

theorem same_upd {sk : Nat → SinkSt M} {j : Nat} {f : SinkSt M → SinkSt M} (hf : ∀ x, SameWork (f x) x) (i : Nat) : SameWork (updSink sk j f i) (sk i) := by
  unfold updSink
  split
  · exact hf _
  · exact ⟨rfl, rfl, rfl⟩

theorem child_enterSink {t i : Nat} {x : SItem M} (h : Child k0 P k) (e : k.enterSink t i x = some k') : Child k0 P k' := by
  obtain ⟨q, _, rfl⟩ := Option.map_eq_some_iff.1 e
  exact child_keep h rfl rfl rfl rfl rfl (fun i _ => same_refl i) rfl rfl rfl rfl (List.prefix_refl _) rfl rfl

theorem child_stopSink {t i : Nat} {r : Bool} (h : Child k0 P k) (e : k.stopSink t i r = some k') : Child k0 P k' := by
  unfold KState.stopSink at e
  refine child_enterSink (child_keep h ?_ ?_ ?_ ?_ ?_ (fun j _ => ?_) ?_ ?_ ?_ ?_ ?_ ?_ ?_) e
  case refine_6 => exact same_upd (f := fun x => { x with stopSent := true, reaping := r || x.reaping }) (fun x => ⟨rfl, rfl, rfl⟩) j
  all_goals first | rfl | exact List.prefix_refl _

theorem child_drop {t i : Nat} (h : Child k0 P k) (e : k.drop t i = some k') : Child k0 P k' := by
  unfold KState.drop at e
  split at e
  · cases e; exact h
  · exact child_stopSink h e

theorem zip_any_false {α β : Type} {a : List α} {b : List β} {p : α × β → Bool} (h : (a.zip b).any p = false) {c : Nat} {x : α} {y : β} (hx : a[c]? = some x) (hy : b[c]? = some y) :
    p (x, y) = false := by
  rw [List.any_eq_false] at h
  have : (x, y) ∈ a.zip b := List.mem_of_getElem? (i := c) (by rw [List.getElem?_zip_eq_some]; exact ⟨hx, hy⟩)
  simpa using h _ this

/-- A free thread has no call open. -/
theorem free_returned {t c : Nat} {w : WCall} (hf : k.free t = true) (h1 : k.ctl.calls[c]? = some w) (h2 : k.own[c]? = some t) : w.returned = true := by
  unfold KState.free at hf
  simp only [Bool.and_eq_true, Bool.not_eq_true'] at hf
  have := zip_any_false hf.1.2 h1 h2
  simpa using this

theorem gone_null {p : DPhase} (h : p.bgNull = false) : p.queueGone = false := by cases p <;> first | rfl | cases h

/-- No call that the child waits for returns. -/
theorem child_stuck (h : Child k0 P k) (hf : ∀ u, P u → k0.free u = true) {u c : Nat} {w : WCall} (hu : P u) (hc : k.ctl.calls[c]? = some w) (ho : k.own[c]? = some u)
    (hr : w.returned = false) : k0.ctl.calls.length ≤ c ∧ ready k.ctl w = false := by
  by_cases hl : c < k0.ctl.calls.length
  · obtain ⟨a, b⟩ := h.old c hl
    have := free_returned (hf u hu) (a ▸ hc) (b ▸ ho)
    rw [this] at hr; cases hr
  · obtain ⟨_, p, hp, hle⟩ := h.new c w (by omega) hc
    refine ⟨by omega, ?_⟩
    unfold ready
    rw [hp]
    simp only [gone_null h.bg, Bool.or_false, decide_eq_false_iff_not, h.comp]
    omega

theorem child_dtor (h : Child k0 P k) {t : Nat} (ht : P t) (hs : k.dtor t = some k') : Child k0 P k' := by
  unfold KState.dtor at hs
  split at hs
  · split at hs
    · next hd hc =>
      obtain ⟨q, hq, rfl⟩ := Option.map_eq_some_iff.1 hs
      have hc1 := hc.1
      have hq' : q.q = k.wq.q := by
        simp only [qStep] at hq
        split at hq
        · cases hq; rfl
        · cases hq
      refine ⟨h.comp, h.wpc, h.hand, h.att, h.nle, h.sk, h.bg, ?_, ?_, h.sub, h.len, h.old, h.new, h.race⟩
      · intro p hp; exact absurd (hc1.symm.trans hp) (by intro e; cases e)
      · show _ <+: q.q; rw [hq']; exact h.q
    · cases hs
  · split at hs
    · next hc =>
      have hb := h.bg
      split at hs
      · cases hs
      · next p hp =>
        split at hs
        · next hl =>
          have := h.ph p hp t hc.1 ht
          rw [h.comp] at hl; omega
        · cases hs
      all_goals (next hp => rw [hp] at hb; cases hb)
    · cases hs

/-- A thread of the child puts a task into the worker's queue. -/
theorem child_put (h : Child k0 P k) (hle : k0.ctl.completed ≤ k.ctl.sub.length) (hi : KInv n k) {t : Nat} {j : KTask M} (hp : k.wq.pcs[t]? = some (.crit (.push j)))
    (hs : k.put t j = some k') : Child k0 P k' := by
  unfold KState.put at hs
  rw [if_neg (by rw [h.bg]; simp)] at hs
  obtain ⟨q, hq, rfl⟩ := Option.map_eq_some_iff.1 hs
  have hq' : k.wq.q <+: q.q := by
    rw [number_eq hp] at hq
    simp only [qStep] at hq
    split at hq
    · next op ho =>
      have hlt := lt_of_pc hp
      rw [List.getElem?_set_self hlt] at ho
      cases ho
      simp only [critical] at hq
      cases hq
      exact List.prefix_append _ _
    · cases hq
  have hq2 : k0.wq.q <+: q.q := h.q.trans hq'
  have hown := hi.own
  have ext : ∀ {w : WCall}, (∃ p, w.pos = some p ∧ k0.ctl.completed ≤ p) → w.returned = false →
      (∀ c, c < k0.ctl.calls.length → (k.ctl.calls ++ [w])[c]? = k0.ctl.calls[c]? ∧ (k.own ++ [t])[c]? = k0.own[c]?) ∧
      (∀ c v, k0.ctl.calls.length ≤ c → (k.ctl.calls ++ [w])[c]? = some v → v.returned = false ∧ ∃ p, v.pos = some p ∧ k0.ctl.completed ≤ p) := by
    intro w hw hr
    have hl := h.len
    constructor
    · intro c hc
      rw [List.getElem?_append_left (by omega), List.getElem?_append_left (by omega)]
      exact h.old c hc
    · intro c v hc hv
      by_cases hcl : c < k.ctl.calls.length
      · rw [List.getElem?_append_left hcl] at hv; exact h.new c v hc hv
      · rw [List.getElem?_append_right (by omega)] at hv
        cases hd : c - k.ctl.calls.length with
        | zero => rw [hd] at hv; cases hv; exact ⟨hr, hw⟩
        | succ e => rw [hd] at hv; cases hv
  have hl := h.len
  cases j with
  | save m => exact ⟨h.comp, h.wpc, h.hand, h.att, h.nle, h.sk, h.bg, h.ph, hq2, h.sub.trans (List.prefix_append _ _), h.len, h.old, h.new, h.race⟩
  | fatal m => exact ⟨h.comp, h.wpc, h.hand, h.att, h.nle, h.sk, h.bg, h.ph, hq2, h.sub.trans (List.prefix_append _ _), h.len, h.old, h.new, h.race⟩
  | done => exact ⟨h.comp, h.wpc, h.hand, h.att, h.nle, h.sk, h.bg, h.ph, hq2, h.sub, h.len, h.old, h.new, h.race⟩
  | dtorClear => exact ⟨h.comp, h.wpc, h.hand, h.att, h.nle, h.sk, rfl, fun p hp t _ _ => by cases hp; exact hle, hq2, h.sub.trans (List.prefix_append _ _), h.len, h.old, h.new, h.race⟩
  | sinkFatal i m =>
    refine ⟨h.comp, h.wpc, h.hand, h.att, h.nle, ?_, h.bg, h.ph, hq2, h.sub.trans (List.prefix_append _ _), h.len, h.old, h.new, h.race⟩
    intro j hj
    have a := same_upd (sk := k.ctl.sk) (j := i) (f := fun x => { x with blocked := true }) (fun x => ⟨rfl, rfl, rfl⟩) j
    have b := h.sk j hj
    exact ⟨a.1.trans b.1, a.2.1.trans b.2.1, a.2.2.trans b.2.2⟩
  | remove i =>
    obtain ⟨a, b⟩ := ext (w := ⟨.remove i, some k.ctl.sub.length, false⟩) ⟨_, rfl, hle⟩ rfl
    exact ⟨h.comp, h.wpc, h.hand, h.att, h.nle, h.sk, h.bg, h.ph, hq2, h.sub.trans (List.prefix_append _ _), by simp only [KTask.effect, List.length_append]; omega, a, b, h.race⟩
  | clear =>
    obtain ⟨a, b⟩ := ext (w := ⟨.clear, some k.ctl.sub.length, false⟩) ⟨_, rfl, hle⟩ rfl
    exact ⟨h.comp, h.wpc, h.hand, h.att, h.nle, h.sk, h.bg, h.ph, hq2, h.sub.trans (List.prefix_append _ _), by simp only [KTask.effect, List.length_append]; omega, a, b, h.race⟩
  | add i =>
    obtain ⟨a, b⟩ := ext (w := ⟨.add k.ctl.n, some k.ctl.sub.length, false⟩) ⟨_, rfl, hle⟩ rfl
    have hn := h.nle
    refine ⟨h.comp, h.wpc, h.hand, h.att, Nat.le_succ_of_le hn, ?_, h.bg, h.ph, hq2, h.sub.trans (List.prefix_append _ _), by simp only [KTask.effect, List.length_append]; omega, a, b, h.race⟩
    intro j hj
    show SameWork (updSink k.ctl.sk k.ctl.n (fun _ => .fresh) j) _
    unfold updSink
    rw [if_neg (by omega)]
    exact h.sk j hj

/-- Steps of a thread that only pushes, inside the worker's queue. -/
theorem child_mem (h : Child k0 P k) (hle : k0.ctl.completed ≤ k.ctl.sub.length) (hi : KInv n k) {l : QLabel (KTask M)} (hw : who l ≠ 0) (hs : k.mem l = some k') :
    Child k0 P k' := by
  have keep : ∀ {q : QState (KTask M)}, k.wq.q <+: q.q → Child k0 P { k with wq := q } := fun e =>
    child_keep h rfl rfl rfl rfl rfl (fun i _ => same_refl i) rfl rfl rfl rfl e rfl rfl
  unfold KState.mem at hs
  cases l with
  | call t op => cases hs
  | act t =>
    simp only at hs
    split at hs
    · next j hp => exact child_put h hle hi hp hs
    · next hp =>
      obtain ⟨q, hq, rfl⟩ := Option.map_eq_some_iff.1 hs
      obtain ⟨op, ho⟩ := act_crit hq
      obtain ⟨x, rfl⟩ := hi.wq.prod t _ hw ho
      exact absurd ho (hp x)
  | unlock t =>
    simp only at hs
    split at hs
    · next x hp =>
      obtain ⟨y, hy⟩ := hi.wq.prod t _ hw hp
      cases hy
    · obtain ⟨q, hq, rfl⟩ := Option.map_eq_some_iff.1 hs
      refine keep ?_
      simp only [qStep] at hq
      split at hq <;> first | (cases hq; exact List.prefix_refl _) | cases hq
  | lock t =>
    obtain ⟨q, hq, rfl⟩ := Option.map_eq_some_iff.1 hs
    refine keep ?_
    simp only [qStep] at hq
    (repeat' split at hq) <;> first | (cases hq; exact List.prefix_refl _) | cases hq
  | notify t u =>
    obtain ⟨q, hq, rfl⟩ := Option.map_eq_some_iff.1 hs
    refine keep ?_
    simp only [qStep] at hq
    (repeat' split at hq) <;> first | (cases hq; exact List.prefix_refl _) | cases hq
  | spurious t =>
    obtain ⟨q, hq, rfl⟩ := Option.map_eq_some_iff.1 hs
    refine keep ?_
    simp only [qStep] at hq
    (repeat' split at hq) <;> first | (cases hq; exact List.prefix_refl _) | cases hq

/-- Steps inside the queue of a sink. -/
theorem child_smem (h : Child k0 P k) (hi : KInv n k) {i : Nat} {l : QLabel (SItem M)} (h1 : who l ≠ 1) (hw : who l ≠ 0 ∨ k0.ctl.n ≤ i)
    (hs : k.smem i l = some k') : Child k0 P k' := by
  have keep : ∀ {q : QState (SItem M)}, Child k0 P { k with sq := updQ k.sq i q } :=
    child_keep h rfl rfl rfl rfl rfl (fun i _ => same_refl i) rfl rfl rfl rfl (List.prefix_refl _) rfl rfl
  unfold KState.smem at hs
  cases l with
  | call t op => cases hs
  | act t =>
    simp only at hs
    split at hs
    · obtain ⟨q, hq, rfl⟩ := Option.map_eq_some_iff.1 hs
      rw [if_neg (fun e => h1 e.1)]
      exact keep
    · obtain ⟨q, hq, rfl⟩ := Option.map_eq_some_iff.1 hs
      exact keep
  | unlock t =>
    simp only at hs
    split at hs
    · next x hp =>
      obtain ⟨q, hq, rfl⟩ := Option.map_eq_some_iff.1 hs
      have hin : k0.ctl.n ≤ i := by
        rcases hw with hw | hw
        · obtain ⟨y, hy⟩ := (hi.sq i).prod t _ hw hp; cases hy
        · exact hw
      refine child_keep h rfl rfl rfl rfl rfl (fun j hj => ?_) rfl rfl rfl rfl (List.prefix_refl _) rfl rfl
      show SameWork (updSink k.ctl.sk i _ j) _
      unfold updSink
      rw [if_neg (by omega)]
      exact same_refl j
    · obtain ⟨q, hq, rfl⟩ := Option.map_eq_some_iff.1 hs
      exact keep
  | lock t => obtain ⟨q, hq, rfl⟩ := Option.map_eq_some_iff.1 hs; exact keep
  | notify t u => obtain ⟨q, hq, rfl⟩ := Option.map_eq_some_iff.1 hs; exact keep
  | spurious t => obtain ⟨q, hq, rfl⟩ := Option.map_eq_some_iff.1 hs; exact keep

/-- What threads of the child do outside the queues. -/
theorem child_act (h : Child k0 P k) (hf : ∀ u, P u → k0.free u = true) {t : Nat} {l : WLabel M} (hl : InChild k0.ctl.n P (.thr t l)) (hs : k.act t l = some k') :
    Child k0 P k' := by
  have beg : (∃ x, begins l x) → l ≠ .dtor → Child k0 P k' := by
    intro hb hd
    rcases act_shape hs hd with ⟨_, a⟩ | ⟨x, q, _, hq, rfl, _⟩
    · exact absurd (a hb) (by rw [h.bg]; simp)
    · refine child_keep h rfl rfl rfl rfl rfl (fun i _ => same_refl i) rfl rfl rfl rfl ?_ rfl rfl
      simp only [qStep] at hq
      split at hq
      · cases hq; exact List.prefix_refl _
      · cases hq
  cases l with
  | save m => exact beg ⟨_, rfl⟩ (by intro e; cases e)
  | fatal m => exact beg ⟨_, rfl⟩ (by intro e; cases e)
  | add => exact beg ⟨_, rfl⟩ (by intro e; cases e)
  | remove i => exact beg ⟨_, rfl⟩ (by intro e; cases e)
  | clear => exact beg ⟨_, rfl⟩ (by intro e; cases e)
  | sinkFatal i m => exact beg ⟨_, rfl⟩ (by intro e; cases e)
  | work => exact hl.elim
  | dtor => exact child_dtor h hl hs
  | ret c =>
    unfold KState.act at hs
    simp only at hs
    split at hs
    · cases hs
    · next w hw =>
      split at hs
      · next hc =>
        have := (child_stuck h hf hl hw hc.1 hc.2.2.1).2
        rw [hc.2.2.2] at this; cases this
      · cases hs
  | hold i =>
    unfold KState.act at hs
    simp only at hs
    split at hs
    · cases hs
      exact child_keep h rfl rfl rfl rfl rfl (fun j _ => same_upd (f := fun x => { x with refs := x.refs + 1 }) (fun x => ⟨rfl, rfl, rfl⟩) j) rfl rfl rfl rfl (List.prefix_refl _) rfl rfl
    · cases hs
  | holdFail i c =>
    unfold KState.act at hs
    simp only at hs
    split at hs
    · cases hs
      exact child_keep h rfl rfl rfl rfl rfl (fun j _ => same_refl j) rfl rfl rfl rfl (List.prefix_refl _) rfl rfl
    · cases hs
  | call i c =>
    unfold KState.act at hs
    simp only at hs
    split at hs
    · exact child_enterSink h hs
    · cases hs
  | release i =>
    unfold KState.act at hs
    simp only at hs
    split at hs
    · refine child_drop (child_keep h ?_ ?_ ?_ ?_ ?_ (fun j _ => ?_) ?_ ?_ ?_ ?_ ?_ ?_ ?_) hs
      case refine_6 => exact same_upd (f := fun x => { x with refs := x.refs - 1 }) (fun x => ⟨rfl, rfl, rfl⟩) j
      all_goals first | rfl | exact List.prefix_refl _
    · cases hs
  | reap i =>
    unfold KState.act at hs
    simp only at hs
    split at hs
    · cases hs
      exact child_keep h rfl rfl rfl rfl rfl (fun j _ => same_upd (f := fun x => { x with destroyed := true, reaping := false }) (fun x => ⟨rfl, rfl, rfl⟩) j) rfl rfl rfl rfl
        (List.prefix_refl _) rfl rfl
    · cases hs
  | sinkPop i =>
    unfold KState.act at hs
    simp only at hs
    split at hs
    · obtain ⟨q, _, rfl⟩ := Option.map_eq_some_iff.1 hs
      exact child_keep h rfl rfl rfl rfl rfl (fun j _ => same_refl j) rfl rfl rfl rfl (List.prefix_refl _) rfl rfl
    · cases hs
  | sinkFin i =>
    unfold KState.act at hs
    simp only at hs
    split at hs
    · cases hs
    · obtain ⟨c, e, rfl⟩ := Option.map_eq_some_iff.1 hs
      have hin : k0.ctl.n ≤ i := hl
      have other : ∀ (f : SinkSt M → SinkSt M) (j : Nat), j < k0.ctl.n → SameWork (updSink k.ctl.sk i f j) (k.ctl.sk j) := by
        intro f j hj
        unfold updSink
        rw [if_neg (by omega)]
        exact same_refl j
      unfold sinkFin at e
      split at e
      · split at e
        · cases e
        · cases e; exact child_keep h rfl rfl rfl rfl rfl (other _) rfl rfl rfl rfl (List.prefix_refl _) rfl rfl
        · cases e; exact child_keep h rfl rfl rfl rfl rfl (other _) rfl rfl rfl rfl (List.prefix_refl _) rfl rfl
      · cases e

/-- One step of the child. -/
theorem child_step (h : Child k0 P k) (hf : ∀ u, P u → k0.free u = true) (hle : k0.ctl.completed ≤ k.ctl.sub.length) (hi : KInv n k) {l : KLabel M}
    (hl : InChild k0.ctl.n P l) (hs : kStep k l = some k') : Child k0 P k' := by
  unfold kStep at hs
  split at hs
  · cases hs
  · cases l with
    | thr t l => exact child_act h hf hl hs
    | pop => exact hl.elim
    | mem l =>
      simp only [gone_null h.bg] at hs
      have := (free_get (hf _ hl)).1
      exact child_mem h hle hi (by omega) hs
    | smem i l =>
      simp only at hs
      have h1 : who l ≠ 1 := by
        rcases hl with hl | hl
        · have := (free_get (hf _ hl)).1; omega
        · omega
      have h2 : who l ≠ 0 ∨ k0.ctl.n ≤ i := by
        rcases hl with hl | hl
        · have := (free_get (hf _ hl)).1; exact Or.inl (by omega)
        · exact Or.inr hl.1
      split at hs
      · obtain ⟨v, hv, rfl⟩ := Option.map_eq_some_iff.1 hs
        exact child_keep h rfl rfl rfl rfl rfl (fun j _ => same_refl j) rfl rfl rfl rfl (List.prefix_refl _) rfl rfl
      · exact child_smem h hi h1 h2 hs

theorem child_start (hb : k.ctl.phase.bgNull = false) (hr : k.race = false) (hf : ∀ u, P u → k.free u = true) : Child k P k := by
  refine ⟨rfl, rfl, rfl, rfl, Nat.le_refl _, fun i _ => same_refl i, hb, ?_, List.prefix_refl _, List.prefix_refl _, Nat.le_refl _, fun _ _ => ⟨rfl, rfl⟩, ?_, hr⟩
  · intro p _ t ht hp
    exact absurd ht (free_get (hf t hp)).2.2
  · intro c w hc hw
    have := lt_of_pc hw
    omega

end G3.Props
