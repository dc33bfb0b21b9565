import Verif.Props.WorkerLocksLive
/-
C93, messages: nothing is lost, doubled or invented between the LOG statement and the worker, and statements that follow one another stay in order.
-/
namespace G3.Props
open G3 G3.Spec

variable {M : Type} {n : Nat} {k k' : KState M}

/-! ### What a step does to the worker's queue -/

/-- The task as it appears in what was handed over, apart from the final one, which is counted when the destructor begins to send it. -/
def entry (n : Nat) (x : KTask M) : List (WTask M) := if isEnd x then [] else [(numbered n x).task]

/-- The kinds of steps. -/
inductive WMove (k : KState M) : KLabel M → KState M → Prop
  | keep {l : KLabel M} {v : KState M} : v.wq.pcs = k.wq.pcs → v.ctl.sub = k.ctl.sub → (∀ t w x, l = .thr t w → begins w x → k.ctl.phase.bgNull = true) → WMove k l v
  | client {t : Nat} {w : WLabel M} {x : KTask M} {v : KState M} : begins w x → k.wq.pcs[t]? = some .idle → v.wq.pcs = k.wq.pcs.set t (.want (.push x)) → v.ctl.sub = k.ctl.sub → WMove k (.thr t w) v
  | clear {t : Nat} {v : KState M} : k.wq.pcs[t]? = some .idle → v.wq.pcs = k.wq.pcs.set t (.want (.push .dtorClear)) → v.ctl.sub = k.ctl.sub → WMove k (.thr t .dtor) v
  | final {t : Nat} {v : KState M} : k.wq.pcs[t]? = some .idle → v.wq.pcs = k.wq.pcs.set t (.want (.push .done)) → v.ctl.sub = k.ctl.sub ++ [.done] → WMove k (.thr t .dtor) v
  | pop {v : KState M} : k.wq.pcs[(0 : Nat)]? = some .idle → v.wq.pcs = k.wq.pcs.set 0 (.want .waitPop) → v.ctl.sub = k.ctl.sub → WMove k .pop v
  | inside {q : QState (KTask M)} {v : KState M} {ql : QLabel (KTask M)} : (∀ t op, ql ≠ .call t op) → (∀ (t : Nat) x, ql = .act t → k.wq.pcs[t]? ≠ some (.crit (.push x))) → qStep k.wq ql = some q →
      v.wq = q → v.ctl.sub = k.ctl.sub → WMove k (.mem ql) v
  | put {t : Nat} {j : KTask M} {v : KState M} : k.wq.pcs[t]? = some (.crit (.push j)) → v.wq.pcs = k.wq.pcs.set t (.fin (.push (numbered k.ctl.n j)) .unit) →
      v.ctl.sub = k.ctl.sub ++ entry k.ctl.n j → WMove k (.mem (.act t)) v

theorem smem_keeps {i : Nat} {l : QLabel (SItem M)} (e : k.smem i l = some k') : k'.wq = k.wq ∧ k'.ctl.sub = k.ctl.sub := by
  unfold KState.smem at e
  split at e
  · cases e
  · split at e
    · obtain ⟨_, _, rfl⟩ := Option.map_eq_some_iff.1 e
      refine ⟨rfl, ?_⟩
      show (if _ then sentOne k.ctl else k.ctl).sub = _
      split <;> rfl
    · obtain ⟨_, _, rfl⟩ := Option.map_eq_some_iff.1 e; exact ⟨rfl, rfl⟩
  · split at e <;> (obtain ⟨_, _, rfl⟩ := Option.map_eq_some_iff.1 e; exact ⟨rfl, rfl⟩)
  · obtain ⟨_, _, rfl⟩ := Option.map_eq_some_iff.1 e; exact ⟨rfl, rfl⟩

theorem begins_dtor {x : KTask M} : ¬ begins (.dtor : WLabel M) x := fun e => e

theorem effect_sub (s : WState M) (j : KTask M) : (j.effect s).sub = s.sub ++ entry s.n j := by
  cases j <;> simp [KTask.effect, entry, isEnd, numbered, KTask.task]

theorem wmove {l : KLabel M} (hs : kStep k l = some k') (hr : k'.race = false) : WMove k l k' := by
  unfold kStep at hs
  split at hs
  · cases hs
  cases l with
  | thr t l =>
    simp only at hs
    by_cases hl : l = .dtor
    · subst hl
      rcases dtor_shape hs with ⟨_, hph, q, hq, rfl⟩ | ⟨_, _, ⟨p, q, h1, h2, h3, h4, h5⟩ | ⟨_, _, _, _, h5, h6⟩ | ⟨_, _, h3, h4⟩⟩
      · obtain ⟨a, _, b⟩ := frame_call hq
        exact .clear a b rfl
      · obtain ⟨a, _, b⟩ := frame_call h3
        exact .final a (by rw [h4]; exact b) h5
      · exact .keep (by rw [h5]) h6 (fun t w x e hb => by cases e; exact (begins_dtor hb).elim)
      · exact .keep (by rw [h3]) h4 (fun t w x e hb => by cases e; exact (begins_dtor hb).elim)
    · rcases act_shape hs hl with ⟨hk, hb⟩ | ⟨x, q, hb, hq, rfl, _⟩
      · exact .keep (by rw [hk.wq]) hk.sub (fun t w x e hx => by cases e; exact hb ⟨x, hx⟩)
      · obtain ⟨a, _, b⟩ := frame_call hq
        exact .client hb a b rfl
  | pop =>
    simp only at hs
    split at hs
    · obtain ⟨q, hq, rfl⟩ := Option.map_eq_some_iff.1 hs
      obtain ⟨a, _, b⟩ := frame_call hq
      exact .pop a b rfl
    · cases hs
  | smem i l =>
    refine .keep ?_ ?_ (fun t w x e => by cases e) <;>
      (simp only at hs
       split at hs
       · obtain ⟨_, _, rfl⟩ := Option.map_eq_some_iff.1 hs; rfl
       · first | rw [(smem_keeps hs).1] | exact (smem_keeps hs).2)
  | mem l =>
    simp only at hs
    split at hs
    · obtain ⟨_, _, rfl⟩ := Option.map_eq_some_iff.1 hs
      cases hr
    · unfold KState.mem at hs
      split at hs
      · cases hs
      · next t =>
        split at hs
        · next j hj =>
          unfold KState.put at hs
          split at hs
          · cases hs; cases hr
          · obtain ⟨q, hq, rfl⟩ := Option.map_eq_some_iff.1 hs
            have hlt := lt_of_pc hj
            rw [number_eq hj] at hq
            have hp : ({ k.wq with pcs := k.wq.pcs.set t (.crit (.push (numbered k.ctl.n j))) } : QState (KTask M)).pcs[t]? = some (.crit (.push (numbered k.ctl.n j))) :=
              List.getElem?_set_self hlt
            obtain ⟨_, b⟩ := frame_act hp hq
            refine .put hj ?_ (effect_sub _ _)
            show q.pcs = _
            rw [b]
            simp
        · next hne =>
          obtain ⟨q, hq, rfl⟩ := Option.map_eq_some_iff.1 hs
          refine .inside (ql := .act t) (fun _ _ e => by cases e) ?_ hq rfl rfl
          intro u x e
          cases e
          exact hne x
      · split at hs <;>
          (obtain ⟨q, hq, rfl⟩ := Option.map_eq_some_iff.1 hs; exact .inside (fun _ _ e => by cases e) (fun _ _ e => by cases e) hq rfl rfl)
      · next h1 h2 _ =>
        obtain ⟨q, hq, rfl⟩ := Option.map_eq_some_iff.1 hs
        exact .inside (fun t op e => h1 t op e) (fun t x e => absurd e (h2 t)) hq rfl rfl

/-! ### Counting -/

/-- The message of a task: fatal or not, and the message. -/
def KTask.msg : KTask M → Option (Bool × M)
  | .save m => some (false, m)
  | .fatal m => some (true, m)
  | .sinkFatal _ m => some (true, m)
  | _ => none

def WTask.msg : WTask M → Option (Bool × M)
  | .save m => some (false, m)
  | .fatal m => some (true, m)
  | _ => none

/-- The message that a client logs in this step. -/
def logs : KLabel M → Option (Bool × M)
  | .thr _ (.save m) => some (false, m)
  | .thr _ (.fatal m) => some (true, m)
  | .thr _ (.sinkFatal _ m) => some (true, m)
  | _ => none

def hit (p : Bool × M → Bool) (o : Option (Bool × M)) : Nat := (o.any p).toNat

/-- How many of the messages with `p` have entered the worker's queue. -/
def entered (p : Bool × M → Bool) (sub : List (WTask M)) : Nat := (sub.map fun x => hit p (WTask.msg x)).sum

/-- A thread that has begun to hand over a message with `p`. -/
def flightPc (p : Bool × M → Bool) (pc : QPc (KTask M)) : Nat := hit p ((earlyPc pc).bind KTask.msg)

/-- How many statements with `p` were begun. -/
def asked (p : Bool × M → Bool) (ls : List (KLabel M)) : Nat := (ls.map fun l => hit p (logs l)).sum

theorem entered_append (p : Bool × M → Bool) (a b : List (WTask M)) : entered p (a ++ b) = entered p a + entered p b := by
  simp [entered]

theorem asked_append (p : Bool × M → Bool) (a b : List (KLabel M)) : asked p (a ++ b) = asked p a + asked p b := by
  simp [asked]

theorem flight_inside (p : Bool × M → Bool) {s s' : QState (KTask M)} {l : QLabel (KTask M)} (h : qStep s l = some s') (hc : ∀ t op, l ≠ .call t op)
    (ha : ∀ (t : Nat) x, l = .act t → s.pcs[t]? ≠ some (.crit (.push x))) : tot (flightPc p) s'.pcs = tot (flightPc p) s.pcs := by
  have z : hit p none = 0 := rfl
  cases l with
  | call t op => exact absurd rfl (hc t op)
  | lock t =>
    simp only [qStep] at h
    split at h
    · cases h
    · split at h
      · next op hp =>
        cases h
        have := tot_set (flightPc p) s.pcs t _ (.crit op) hp
        have e : flightPc p (.want op) = flightPc p (.crit op) := by cases op <;> rfl
        simp only at this ⊢
        omega
      · next hp =>
        cases h
        have := tot_set (flightPc p) s.pcs t _ (.crit .waitPop) hp
        have e : flightPc p (.crit .waitPop) = flightPc p .woken := rfl
        simp only at this ⊢
        omega
      · cases h
  | act t =>
    simp only [qStep] at h
    split at h
    · next op hp =>
      have e : flightPc p (.crit op) = 0 := by
        cases op with
        | push x => exact absurd hp (ha t x rfl)
        | _ => rfl
      split at h
      · next q' r _ =>
        cases h
        have := tot_set (flightPc p) s.pcs t _ (.fin op r) hp
        have e' : flightPc p (.fin op r) = 0 := rfl
        simp only at this ⊢
        omega
      · cases h
        have := tot_set (flightPc p) s.pcs t _ .waiting hp
        have e' : flightPc p .waiting = 0 := rfl
        simp only at this ⊢
        omega
    · cases h
  | unlock t =>
    simp only [qStep] at h
    split at h
    · next x r hp =>
      cases h
      have := tot_set (flightPc p) s.pcs t _ .notify hp
      have e : flightPc p (.fin (.push x) r) = 0 := rfl
      have e' : flightPc p .notify = 0 := rfl
      simp only at this ⊢
      omega
    · next op r _ hp =>
      cases h
      have := tot_set (flightPc p) s.pcs t _ .idle hp
      have e : flightPc p (.fin op r) = 0 := rfl
      have e' : flightPc p .idle = 0 := rfl
      simp only at this ⊢
      omega
    · cases h
  | notify t u =>
    simp only [qStep] at h
    split at h
    · next hp =>
      have h1 := tot_set (flightPc p) s.pcs t _ .idle hp
      have e : flightPc p .notify = 0 := rfl
      have e' : flightPc p .idle = 0 := rfl
      split at h
      · split at h
        · cases h
        · cases h
          simp only at h1 ⊢
          omega
      · next u =>
        split at h
        · next hu =>
          cases h
          have hne : t ≠ u := by intro e; subst e; rw [hp] at hu; cases hu
          have hu' : (s.pcs.set t .idle)[u]? = some .waiting := by rw [List.getElem?_set_ne hne]; exact hu
          have h2 := tot_set (flightPc p) _ u _ .woken hu'
          have e1 : flightPc p .waiting = 0 := rfl
          have e2 : flightPc p .woken = 0 := rfl
          simp only at h1 h2 ⊢
          omega
        · cases h
    · cases h
  | spurious t =>
    simp only [qStep] at h
    split at h
    · next hp =>
      cases h
      have := tot_set (flightPc p) s.pcs t _ .woken hp
      have e : flightPc p .waiting = 0 := rfl
      have e' : flightPc p .woken = 0 := rfl
      simp only at this ⊢
      omega
    · cases h

theorem begins_msg {w : WLabel M} {x : KTask M} {t : Nat} (h : begins w x) : KTask.msg x = logs (.thr t w) := by
  cases w <;> first | exact h.elim | (cases h; rfl)

theorem logs_begins {l : KLabel M} {m : Bool × M} (h : logs l = some m) : ∃ t w x, l = .thr t w ∧ begins w x := by
  cases l with
  | thr t w => cases w <;> first | (cases h; done) | exact ⟨_, _, _, rfl, rfl⟩
  | _ => cases h

/-- A statement without worker is undefined behaviour. -/
theorem logs_ub {l : KLabel M} {m : Bool × M} (h : logs l = some m) (hs : kStep k l = some k') (hb : k.ctl.phase.bgNull = true) : k'.ctl.ub = true := by
  unfold kStep at hs
  split at hs
  · cases hs
  cases l with
  | thr t w =>
    cases w <;> first | (cases h; done) | skip
    all_goals
      simp only [KState.act] at hs
      split at hs
      all_goals first
        | (cases hs; done)
        | (rw [if_pos hb] at hs; cases hs; rfl)
        | (simp only [hb, if_true] at hs; cases hs; rfl)
        | (cases hs; rfl)
  | _ => cases h

theorem count_step (p : Bool × M → Bool) {l : KLabel M} (hs : kStep k l = some k') (hr : k'.race = false) (hu : k'.ctl.ub = false) :
    entered p k'.ctl.sub + tot (flightPc p) k'.wq.pcs = entered p k.ctl.sub + tot (flightPc p) k.wq.pcs + hit p (logs l) := by
  have w := wmove hs hr
  cases w with
  | keep h1 h2 h3 =>
    have : logs l = none := by
      cases hl : logs l with
      | none => rfl
      | some m =>
        exfalso
        obtain ⟨t, w, x, e, hb⟩ := logs_begins hl
        rw [logs_ub hl hs (h3 t w x e hb)] at hu; cases hu
    rw [h1, h2, this]; rfl
  | client h1 h2 h3 h4 =>
    next t w x =>
    have := tot_set (flightPc p) _ t _ (.want (.push x)) h2
    rw [h3, h4]
    have e1 : flightPc p .idle = 0 := rfl
    have e2 : flightPc p (.want (.push x)) = hit p (logs (.thr t w)) := by rw [← begins_msg h1]; rfl
    omega
  | clear h1 h2 h3 =>
    next t =>
    have := tot_set (flightPc p) _ t _ (.want (.push .dtorClear)) h1
    rw [h2, h3]
    have e1 : flightPc p .idle = 0 := rfl
    have e2 : flightPc p (.want (.push .dtorClear)) = 0 := rfl
    have e3 : hit p (logs (.thr t .dtor : KLabel M)) = 0 := rfl
    omega
  | final h1 h2 h3 =>
    next t =>
    have := tot_set (flightPc p) _ t _ (.want (.push .done)) h1
    rw [h2, h3, entered_append]
    have e1 : flightPc p .idle = 0 := rfl
    have e2 : flightPc p (.want (.push .done)) = 0 := rfl
    have e3 : hit p (logs (.thr t .dtor : KLabel M)) = 0 := rfl
    have e4 : entered p [(.done : WTask M)] = 0 := rfl
    omega
  | pop h1 h2 h3 =>
    have := tot_set (flightPc p) _ 0 _ (.want .waitPop) h1
    rw [h2, h3]
    have e1 : flightPc p .idle = 0 := rfl
    have e2 : flightPc p (.want .waitPop) = 0 := rfl
    have e3 : hit p (logs (.pop : KLabel M)) = 0 := rfl
    omega
  | inside h1 h2 h3 h4 h5 =>
    next q ql =>
    rw [h4, h5, flight_inside p h3 h1 h2]
    rfl
  | put h1 h2 h3 =>
    next t j =>
    have := tot_set (flightPc p) _ t _ (.fin (.push (numbered k.ctl.n j)) .unit) h1
    rw [h2, h3, entered_append]
    have e1 : flightPc p (.fin (.push (numbered k.ctl.n j)) .unit) = 0 := rfl
    have e2 : flightPc p (.crit (.push j)) = entered p (entry k.ctl.n j) := by
      show hit p (KTask.msg j) = _
      cases j <;> simp [entered, entry, isEnd, numbered, KTask.task, KTask.msg, WTask.msg, hit]
    have e3 : hit p (logs (.mem (.act t) : KLabel M)) = 0 := rfl
    omega

/-- C93: the messages in the worker are those of the LOG statements: each has entered once or its thread is still on the way, and there are no others. -/
theorem C93_conserved (p : Bool × M → Bool) {ls : List (KLabel M)} : ∀ {k : KState M}, kRun (KState.start n) ls = some k → k.race = false → k.ctl.ub = false →
    entered p k.ctl.sub + tot (flightPc p) k.wq.pcs = asked p ls := by
  induction ls using List.reverseRecOn with
  | nil =>
    intro k h _ _
    cases h
    have : tot (flightPc p) (QState.start n : QState (KTask M)).pcs = 0 := by
      by_contra hc
      obtain ⟨t, pc, hp, hq⟩ := tot_pos (flightPc p) _ (Nat.pos_of_ne_zero hc)
      rw [start_get hp] at hq
      exact absurd (show 0 < 0 from hq) (Nat.lt_irrefl 0)
    show entered p [] + tot (flightPc p) (QState.start n : QState (KTask M)).pcs = 0
    rw [this]; rfl
  | append_singleton a l ih =>
    intro k h hr hu
    obtain ⟨u, h1, h2⟩ := kRun_snoc h
    have h0 := kStep_sane h2
    have := ih h1 h0.2.2.1 h0.1
    rw [count_step p h2 hr hu, this, asked_append]
    simp [asked]

/-! ### Order -/

theorem sub_step {l : KLabel M} (hs : kStep k l = some k') (hr : k'.race = false) : k.ctl.sub <+: k'.ctl.sub := by
  cases wmove hs hr with
  | keep _ h _ => rw [h]; exact List.prefix_rfl
  | client _ _ _ h => rw [h]; exact List.prefix_rfl
  | clear _ _ h => rw [h]; exact List.prefix_rfl
  | final _ _ h => rw [h]; exact List.prefix_append _ _
  | pop _ _ h => rw [h]; exact List.prefix_rfl
  | inside _ _ _ _ h => rw [h]; exact List.prefix_rfl
  | put _ _ h => rw [h]; exact List.prefix_append _ _

theorem race_run {ls : List (KLabel M)} : ∀ {k k' : KState M}, kRun k ls = some k' → k'.race = false → k.race = false := by
  induction ls with
  | nil => intro k k' h hr; cases h; exact hr
  | cons l ls ih =>
    intro k k' h _
    rw [kRun] at h
    obtain ⟨u, hu, _⟩ := Option.bind_eq_some_iff.1 h
    exact (kStep_sane hu).2.2.1

theorem ub_run {ls : List (KLabel M)} {k k' : KState M} (h : kRun k ls = some k') (hu : k'.ctl.ub = false) : k.ctl.ub = false := by
  cases ls with
  | nil => cases h; exact hu
  | cons l ls =>
    rw [kRun] at h
    obtain ⟨u, hu, _⟩ := Option.bind_eq_some_iff.1 h
    exact (kStep_sane hu).1

theorem sub_run {ls : List (KLabel M)} : ∀ {k k' : KState M}, kRun k ls = some k' → k'.race = false → k.ctl.sub <+: k'.ctl.sub := by
  induction ls with
  | nil => intro k k' h _; cases h; exact List.prefix_rfl
  | cons l ls ih =>
    intro k k' h hr
    rw [kRun] at h
    obtain ⟨u, hu, h⟩ := Option.bind_eq_some_iff.1 h
    exact (sub_step hu (race_run h hr)).trans (ih h hr)

/-- A thread that has begun to hand over a message and is done with it has handed it over. -/
theorem leaves {m : M} {t : Nat} {ls : List (KLabel M)} : ∀ {k k' : KState M} {pc : QPc (KTask M)}, kRun k ls = some k' → k'.race = false →
    k.wq.pcs[t]? = some pc → earlyPc pc = some (.save m) → k'.wq.pcs[t]? = some .idle → .save m ∈ k'.ctl.sub := by
  induction ls with
  | nil =>
    intro k k' pc h _ h1 h2 h3
    cases h
    rw [h1] at h3
    cases h3
    cases h2
  | cons l ls ih =>
    intro k k' pc h hr h1 h2 h3
    rw [kRun] at h
    obtain ⟨u, hu, h'⟩ := Option.bind_eq_some_iff.1 h
    clear h
    have h := h'
    clear h'
    have hr' := race_run h hr
    have other : ∀ {v : Nat} {p : QPc (KTask M)}, k.wq.pcs[v]? = some .idle → u.wq.pcs = k.wq.pcs.set v p → .save m ∈ k'.ctl.sub := by
      intro v p e1 e2
      have hne : v ≠ t := by
        intro e; subst e
        rw [h1] at e1; cases e1; cases h2
      exact ih h hr (by rw [e2, List.getElem?_set_ne hne]; exact h1) h2 h3
    cases wmove hu hr' with
    | keep e1 _ _ => exact ih h hr (by rw [e1]; exact h1) h2 h3
    | client _ e1 e2 _ => exact other e1 e2
    | clear e1 e2 _ => exact other e1 e2
    | final e1 e2 _ => exact other e1 e2
    | pop e1 e2 _ => exact other e1 e2
    | inside e1 e2 e3 e4 e5 =>
      next q ql =>
      by_cases ha : ql = .act t
      · exfalso
        obtain ⟨op, hop⟩ := act_crit (by rw [ha] at e3; exact e3)
        rw [h1] at hop
        cases hop
        cases op <;> first | (cases h2; done) | exact e2 t _ ha h1
      · obtain ⟨p', f1, f2⟩ := frame_keep e3 h1 h2 ha
        exact ih h hr (by rw [e4]; exact f1) f2 h3
    | put e1 e2 e3 =>
      next v j =>
      by_cases hv : v = t
      · subst hv
        rw [h1] at e1
        cases e1
        cases h2
        refine (sub_run h hr).subset ?_
        rw [e3]
        simp [entry, isEnd, numbered, KTask.task]
      · exact ih h hr (by rw [e2, List.getElem?_set_ne hv]; exact h1) h2 h3

theorem entered_pos {p : Bool × M → Bool} {sub : List (WTask M)} {x : WTask M} {m : Bool × M} (h : x ∈ sub) (hx : WTask.msg x = some m) (hp : p m = true) : 0 < entered p sub := by
  induction sub with
  | nil => cases h
  | cons a r ih =>
    rw [show entered p (a :: r) = hit p (WTask.msg a) + entered p r by simp [entered]]
    rcases List.mem_cons.1 h with rfl | h
    · have : hit p (WTask.msg x) = 1 := by simp [hit, hx, hp]
      omega
    · have := ih h
      omega

theorem asked_zero {p : Bool × M → Bool} {ls : List (KLabel M)} (h : ∀ l ∈ ls, hit p (logs l) = 0) : asked p ls = 0 := by
  induction ls with
  | nil => rfl
  | cons a r ih =>
    rw [show asked p (a :: r) = hit p (logs a) + asked p r by simp [asked], h a (by simp), ih (fun l hl => h l (by simp [hl]))]

/-- C93: if a LOG statement has returned before another one is begun, on the same thread or another, every sink that receives both messages receives
them in that order. -/
theorem C93_program_order {a b c : List (KLabel M)} {t u : Nat} {x y : M} {k s : KState M}
    (h1 : kRun (KState.start n) (a ++ .thr t (.save x) :: b) = some s) (ho : s.wq.pcs[t]? = some .idle)
    (h2 : kRun s (.thr u (.save y) :: c) = some k) (hr : k.race = false) (hu : k.ctl.ub = false)
    (hn : ((k.ctl.sub.map req).flatMap Req.gives).Nodup) (hy : ∀ l ∈ a ++ .thr t (.save x) :: b, logs l ≠ some (false, y)) (i : Nat)
    (hxr : .log x ∈ received (k.ctl.sk i)) (hyr : .log y ∈ received (k.ctl.sk i)) : [.log x, .log y].Sublist (received (k.ctl.sk i)) := by
  have hrs := race_run h2 hr
  have hus := ub_run h2 hu
  have hrun : kRun (KState.start n) ((a ++ .thr t (.save x) :: b) ++ (.thr u (.save y) :: c)) = some k := by
    have : ∀ {p q : List (KLabel M)} {k0 k1 k2 : KState M}, kRun k0 p = some k1 → kRun k1 q = some k2 → kRun k0 (p ++ q) = some k2 := by
      intro p
      induction p with
      | nil => intro q k0 k1 k2 e1 e2; cases e1; exact e2
      | cons l p ih =>
        intro q k0 k1 k2 e1 e2
        rw [kRun] at e1
        obtain ⟨v, hv, e1⟩ := Option.bind_eq_some_iff.1 e1
        rw [List.cons_append, kRun, hv]
        exact ih e1 e2
    exact this h1 h2
  have hsubl := (C93_received hrun hr i).sublist.trans (gets_sublist i _)
  refine pair_of_sublist hsubl hn ?_ hxr hyr
  -- x has entered
  have hx : .save x ∈ s.ctl.sub := by
    obtain ⟨v, e1, e2⟩ := kRun_append h1
    rw [kRun] at e2
    obtain ⟨w, hw, e2⟩ := Option.bind_eq_some_iff.1 e2
    have hrw := race_run e2 hrs
    have huw := ub_run e2 hus
    cases wmove hw hrw with
    | keep _ _ e =>
      exfalso
      rw [logs_ub (m := (false, x)) rfl hw (e t _ _ rfl rfl)] at huw; cases huw
    | client f1 f2 f3 _ =>
      cases f1
      exact leaves e2 hrs (by rw [f3]; exact List.getElem?_set_self (lt_of_pc f2)) rfl ho
  -- y has not
  have hny : .log y ∉ (s.ctl.sub.map req).flatMap Req.gives := by
    intro hmem
    obtain ⟨r, hr1, hr2⟩ := List.mem_flatMap.1 hmem
    obtain ⟨z, hz1, rfl⟩ := List.mem_map.1 hr1
    have hz : z = .save y := by cases z <;> simp [req, Req.gives] at hr2; rw [hr2]
    subst hz
    classical
    have hc := C93_conserved (fun q => decide (q = (false, y))) h1 hrs hus
    have hpos := entered_pos (p := fun q => decide (q = (false, y))) hz1 rfl (by simp)
    have hzero : asked (fun q => decide (q = (false, y))) (a ++ .thr t (.save x) :: b) = 0 := by
      apply asked_zero
      intro l hl
      have := hy l hl
      cases e : logs l with
      | none => rfl
      | some q =>
        rw [e] at this
        have : q ≠ (false, y) := fun e' => this (by rw [e'])
        simp [hit, this]
    omega
  obtain ⟨d, hd⟩ := sub_run h2 hr
  rw [← hd] at hsubl
  have hyL : .log y ∈ (d.map req).flatMap Req.gives := by
    have := hsubl.subset hyr
    rw [List.map_append, List.flatMap_append, List.mem_append] at this
    exact this.resolve_left hny
  rw [← hd, List.map_append, List.flatMap_append]
  have hxL : .log x ∈ (s.ctl.sub.map req).flatMap Req.gives :=
    List.mem_flatMap.2 ⟨.log x, List.mem_map.2 ⟨_, hx, rfl⟩, by simp [Req.gives]⟩
  exact (List.singleton_sublist.2 hxL).append (List.singleton_sublist.2 hyL)

end G3.Props
