import Verif.Props.WorkerBook
/-
Invariants of the worker model about synchronous calls, sinks and their owners.
-/
namespace G3.Props
open G3

variable {M : Type}

/-- Synchronous calls. -/
structure CallsInv (s : WState M) : Prop where
  pos : ∀ c ∈ s.calls, ∀ p, c.pos = some p → s.sub[p]? = some (kindTask c.kind)
  ret : ∀ c ∈ s.calls, c.returned = true → ready s c = true
  adds : ∀ p i, s.sub[p]? = some (.add i) → ∃ c ∈ s.calls, c.kind = .add i ∧ c.pos = some p
  ids : ∀ c ∈ s.calls, ∀ i, c.kind = .add i ∨ c.kind = .remove i → i < s.n
  nodup : (s.sub.filterMap addId).Nodup
  rms : ∀ i, .remove i ∈ s.sub → i < s.n

theorem calls_start : CallsInv (WState.start : WState M) :=
  ⟨fun c hc => (by cases hc), fun c hc => (by cases hc), fun p i h => (by simp [WState.start] at h), fun c hc => (by cases hc), List.nodup_nil,
    fun i hi => (by cases hi)⟩

theorem addId_mem {l : List (WTask M)} {i : Nat} : i ∈ l.filterMap addId ↔ .add i ∈ l := by
  rw [List.mem_filterMap]
  constructor
  · rintro ⟨t, ht, hi⟩
    cases t <;> simp [addId] at hi
    subst hi; exact ht
  · intro h; exact ⟨_, h, rfl⟩

theorem calls_idsSub {s : WState M} (h : CallsInv s) {i : Nat} (hi : .add i ∈ s.sub) : i < s.n := by
  obtain ⟨p, hp⟩ := List.mem_iff_getElem?.1 hi
  obtain ⟨c, hc, hk, _⟩ := h.adds p i hp
  exact h.ids c hc i (Or.inl hk)

/-- Steps that hand in a task which is not an `addSink`, with or without a call record. -/
theorem calls_push {s s' : WState M} (h : CallsInv s) (t : WTask M) (hs : s'.sub = s.sub ++ [t]) (hn : s'.n = s.n)
    (ht : addId t = none) (ht2 : ∀ i, t = .remove i → i < s.n) (hc : s'.completed = s.completed) (hg : s.phase.queueGone = true → s'.phase.queueGone = true)
    (hcl : s'.calls = s.calls ∨ ∃ k, s'.calls = s.calls ++ [⟨k, some s.sub.length, false⟩] ∧ t = kindTask k ∧ ∀ i, k = .remove i → i < s.n) :
    CallsInv s' := by
  have hsub : ∀ c ∈ s.calls, c ∈ s'.calls := by
    rcases hcl with e | ⟨k, e, _⟩ <;> rw [e]
    · exact fun c h => h
    · exact fun c h => List.mem_append_left _ h
  have hcases : ∀ c ∈ s'.calls, c ∈ s.calls ∨ ∃ k, c = ⟨k, some s.sub.length, false⟩ ∧ t = kindTask k ∧ ∀ i, k = .remove i → i < s.n := by
    intro c hc
    rcases hcl with e | ⟨k, e, e2⟩
    · rw [e] at hc; exact Or.inl hc
    · rw [e] at hc
      rcases List.mem_append.1 hc with hc | hc
      · exact Or.inl hc
      · rw [List.mem_singleton] at hc; exact Or.inr ⟨k, hc, e2⟩
  refine ⟨?_, ?_, ?_, ?_, ?_, ?_⟩
  · intro c hc' p hp
    rw [hs]
    rcases hcases c hc' with h1 | ⟨k, rfl, h2, _⟩
    · exact getElem?_append_some (h.pos c h1 p hp)
    · cases hp; simp [h2]
  · intro c hc' hr
    rcases hcases c hc' with h1 | ⟨k, rfl, _⟩
    · have := h.ret c h1 hr
      unfold ready at this ⊢
      rw [hc]
      cases hp : c.pos with
      | none => rfl
      | some p =>
        rw [hp] at this
        simp only [Bool.or_eq_true] at this ⊢
        exact this.imp (fun a => a) hg
    · cases hr
  · intro p i hp
    rw [hs] at hp
    rcases Nat.lt_or_ge p s.sub.length with hl | hl
    · rw [List.getElem?_append_left hl] at hp
      obtain ⟨c, h1, h2⟩ := h.adds p i hp
      exact ⟨c, hsub c h1, h2⟩
    · exfalso
      rw [List.getElem?_append_right hl] at hp
      cases hx : p - s.sub.length with
      | zero => rw [hx] at hp; cases hp; cases ht
      | succ m => rw [hx] at hp; cases hp
  · intro c hc' i hi
    rw [hn]
    rcases hcases c hc' with h1 | ⟨k, rfl, h2, h3⟩
    · exact h.ids c h1 i hi
    · simp only at hi
      rcases hi with hi | hi
      · subst hi; rw [h2] at ht; cases ht
      · exact h3 i hi
  · rw [hs, List.filterMap_append]
    have : List.filterMap addId [t] = [] := by simp [ht]
    rw [this, List.append_nil]
    exact h.nodup
  · intro i hi
    rw [hs, List.mem_append, List.mem_singleton] at hi
    rw [hn]
    exact hi.elim (h.rms i) (fun e => ht2 i e.symm)

/-- Steps that leave tasks alone. -/
theorem calls_frame {s s' : WState M} (h : CallsInv s) (h1 : s'.calls = s.calls) (h2 : s'.sub = s.sub) (h3 : s.completed ≤ s'.completed)
    (h4 : s'.n = s.n) (h5 : s.phase.queueGone = true → s'.phase.queueGone = true) : CallsInv s' := by
  refine ⟨by rw [h1, h2]; exact h.pos, ?_, by rw [h1, h2]; exact h.adds, by rw [h1, h4]; exact h.ids, by rw [h2]; exact h.nodup, by rw [h2, h4]; exact h.rms⟩
  intro c hc hr
  rw [h1] at hc
  have := h.ret c hc hr
  unfold ready at this ⊢
  cases hp : c.pos with
  | none => rfl
  | some p =>
    rw [hp] at this
    simp only [Bool.or_eq_true, decide_eq_true_eq] at this ⊢
    exact this.imp (fun a => by omega) h5

/-- A call without a worker. -/
theorem calls_null {s : WState M} (h : CallsInv s) (k : WKind) (n' : Nat) (sk' : Nat → SinkSt M) (hn : s.n ≤ n')
    (hk : ∀ i, k = .add i ∨ k = .remove i → i < n') : CallsInv { s with n := n', sk := sk', calls := s.calls ++ [⟨k, none, false⟩] } := by
  refine ⟨?_, ?_, ?_, ?_, h.nodup, fun i hi => Nat.lt_of_lt_of_le (h.rms i hi) hn⟩
  · intro c hc p hp
    rcases List.mem_append.1 hc with hc | hc
    · exact h.pos c hc p hp
    · rw [List.mem_singleton] at hc; subst hc; cases hp
  · intro c hc hr
    rcases List.mem_append.1 hc with hc | hc
    · exact h.ret c hc hr
    · rw [List.mem_singleton] at hc; subst hc; cases hr
  · intro p i hp
    obtain ⟨c, h1, h2⟩ := h.adds p i hp
    exact ⟨c, List.mem_append_left _ h1, h2⟩
  · intro c hc i hi
    rcases List.mem_append.1 hc with hc | hc
    · exact Nat.lt_of_lt_of_le (h.ids c hc i hi) hn
    · rw [List.mem_singleton] at hc; subst hc; exact hk i hi

theorem mem_set_cases {α} {l : List α} {k : Nat} {a b : α} (h : b ∈ l.set k a) : b ∈ l ∨ b = a := by
  exact (List.mem_or_eq_of_mem_set h)

theorem mem_set_of_mem {α} {l : List α} {k : Nat} {a b c : α} (hk : l[k]? = some c) (h : b ∈ l) : b ∈ l.set k a ∨ (b = c ∧ a ∈ l.set k a) := by
  obtain ⟨j, hj⟩ := List.mem_iff_getElem?.1 h
  have hkl : k < l.length := by
    by_contra hn
    rw [List.getElem?_eq_none (by omega)] at hk; cases hk
  by_cases hjk : j = k
  · subst hjk
    rw [hj] at hk; cases hk
    right
    refine ⟨rfl, List.mem_iff_getElem?.2 ⟨j, ?_⟩⟩
    rw [List.getElem?_set_self hkl]
  · left
    refine List.mem_iff_getElem?.2 ⟨j, ?_⟩
    rw [List.getElem?_set_ne (fun h => hjk h.symm)]
    exact hj

/-- A call returns. -/
theorem calls_ret {s : WState M} (h : CallsInv s) (k : Nat) (c : WCall) (hc : s.calls[k]? = some c) (hr : ready s c = true)
    (sk' : Nat → SinkSt M) : CallsInv { s with calls := s.calls.set k { c with returned := true }, sk := sk' } := by
  have hcm : c ∈ s.calls := List.mem_iff_getElem?.2 ⟨k, hc⟩
  refine ⟨?_, ?_, ?_, ?_, h.nodup, h.rms⟩
  · intro d hd p hp
    rcases mem_set_cases hd with hd | rfl
    · exact h.pos d hd p hp
    · exact h.pos c hcm p hp
  · intro d hd hdr
    rcases mem_set_cases hd with hd | rfl
    · exact h.ret d hd hdr
    · exact hr
  · intro p i hp
    obtain ⟨d, h1, h2, h3⟩ := h.adds p i hp
    rcases mem_set_of_mem (a := ({ c with returned := true } : WCall)) hc h1 with hm | ⟨rfl, hm⟩
    · exact ⟨d, hm, h2, h3⟩
    · exact ⟨_, hm, h2, h3⟩
  · intro d hd i hi
    rcases mem_set_cases hd with hd | rfl
    · exact h.ids d hd i hi
    · exact h.ids c hcm i hi

theorem calls_addQ {s : WState M} (h : CallsInv s) (sk' : Nat → SinkSt M) :
    CallsInv { s with n := s.n + 1, sk := sk', wq := s.wq ++ [.add s.n], sub := s.sub ++ [.add s.n],
                      calls := s.calls ++ [⟨.add s.n, some s.sub.length, false⟩] } := by
  refine ⟨?_, ?_, ?_, ?_, ?_, ?_⟩
  · intro c hc p hp
    rcases List.mem_append.1 hc with hc | hc
    · exact getElem?_append_some (h.pos c hc p hp)
    · rw [List.mem_singleton] at hc; subst hc; cases hp
      show (s.sub ++ [_])[s.sub.length]? = _
      simp [kindTask]
  · intro c hc hr
    rcases List.mem_append.1 hc with hc | hc
    · exact h.ret c hc hr
    · rw [List.mem_singleton] at hc; subst hc; cases hr
  · intro p i hp
    simp only at hp
    rcases Nat.lt_or_ge p s.sub.length with hl | hl
    · rw [List.getElem?_append_left hl] at hp
      obtain ⟨c, h1, h2⟩ := h.adds p i hp
      exact ⟨c, List.mem_append_left _ h1, h2⟩
    · rw [List.getElem?_append_right hl] at hp
      cases hx : p - s.sub.length with
      | zero =>
        rw [hx] at hp; cases hp
        exact ⟨⟨.add s.n, some s.sub.length, false⟩, List.mem_append_right _ (List.mem_singleton.2 rfl), rfl, by rw [show p = s.sub.length by omega]⟩
      | succ m => rw [hx] at hp; cases hp
  · intro c hc i hi
    rcases List.mem_append.1 hc with hc | hc
    · exact Nat.lt_succ_of_lt (h.ids c hc i hi)
    · rw [List.mem_singleton] at hc; subst hc
      rcases hi with hi | hi <;> cases hi
      exact Nat.lt_succ_self _
  · simp only [List.filterMap_append]
    rw [List.nodup_append]
    refine ⟨h.nodup, by simp [addId], ?_⟩
    intro a ha b hb heq
    subst heq
    rw [addId_mem] at ha hb
    rw [List.mem_singleton] at hb
    cases hb
    exact absurd (calls_idsSub h ha) (Nat.lt_irrefl _)
  · intro i hi
    rcases List.mem_append.1 hi with hi | hi
    · exact Nat.lt_succ_of_lt (h.rms i hi)
    · rw [List.mem_singleton] at hi; cases hi

theorem calls_tr {s s' : WState M} (ht : Tr s s') (h : CallsInv s) : CallsInv s' := by
  cases ht with
  | ub => exact calls_frame h rfl rfl (Nat.le_refl _) rfl id
  | save m hb => exact calls_push h (.save m) rfl rfl rfl (fun j hj => by cases hj) rfl id (Or.inl rfl)
  | fatal m hb => exact calls_push h (.fatal m) rfl rfl rfl (fun j hj => by cases hj) rfl id (Or.inl rfl)
  | addQ hb => exact calls_addQ h _
  | addN hb hr => exact calls_null h _ _ _ (Nat.le_succ _) (fun i hi => by rcases hi with hi | hi <;> cases hi; exact Nat.lt_succ_self _)
  | rmQ i hi hb => exact calls_push h (.remove i) rfl rfl rfl (fun j hj => by cases hj; exact hi) rfl id (Or.inr ⟨.remove i, rfl, rfl, fun j hj => by cases hj; exact hi⟩)
  | rmN i hi hb => exact calls_null h _ _ _ (Nat.le_refl _) (fun j hj => by rcases hj with hj | hj <;> cases hj; exact hi)
  | clrQ hb => exact calls_push h .clear rfl rfl rfl (fun j hj => by cases hj) rfl id (Or.inr ⟨.clear, rfl, rfl, fun j hj => by cases hj⟩)
  | clrN hb => exact calls_null h _ _ _ (Nat.le_refl _) (fun j hj => by rcases hj with hj | hj <;> cases hj)
  | retAddKeep k i c hc hn hr hk ho => exact calls_ret h k c hc hr _
  | retAddDrop k i c hc hn hr hk ho => exact calls_ret h k c hc hr _
  | retOther k c hc hn hr hk => exact calls_ret h k c hc hr _
  | dStart hp => exact calls_push h .clear rfl rfl rfl (fun j hj => by cases hj) rfl (fun hg => by rw [hp] at hg; cases hg) (Or.inl rfl)
  | dStop p hp hc => exact calls_push h .done rfl rfl rfl (fun j hj => by cases hj) rfl (fun hg => by rw [hp] at hg; cases hg) (Or.inl rfl)
  | dJoin => exact calls_frame h rfl rfl (Nat.le_refl _) rfl (fun _ => rfl)
  | dRet => exact calls_frame h rfl rfl (Nat.le_refl _) rfl (fun _ => rfl)
  | dDrop => exact calls_frame h rfl rfl (Nat.le_refl _) rfl (fun _ => rfl)
  | dReap => exact calls_frame h rfl rfl (Nat.le_refl _) rfl (fun _ => rfl)
  | sFatal i x m hi hbl hr hx hb => exact calls_push h (.fatal m) rfl rfl rfl (fun j hj => by cases hj) rfl id (Or.inl rfl)
  | _ => first
    | exact calls_frame h rfl rfl (Nat.le_refl _) rfl id
    | exact calls_frame h rfl rfl (Nat.le_succ _) rfl id

theorem adding_iff {calls : List WCall} {i : Nat} : adding calls i = true ↔ ∃ c ∈ calls, c.kind = .add i ∧ c.returned = false := by
  simp [adding, List.any_eq_true]

/-- The caller of an `addSink` whose task is queued still holds its reference. -/
theorem wq_adding {s : WState M} (hb : Book s) (hc : CallsInv s) {i : Nat} (h : .add i ∈ s.wq) : adding s.calls i = true := by
  have hg : s.phase.queueGone = false := by
    cases hg : s.phase.queueGone
    · rfl
    · rw [(hb.gone hg).1] at h; cases h
  rw [hb.queue hg] at h
  obtain ⟨q, hq⟩ := List.mem_iff_getElem?.1 h
  rw [List.getElem?_drop] at hq
  obtain ⟨c, h1, h2, h3⟩ := hc.adds _ i hq
  rw [adding_iff]
  refine ⟨c, h1, h2, ?_⟩
  cases hr : c.returned
  · rfl
  · have := hc.ret c h1 hr
    unfold ready at this
    rw [h3, hg] at this
    simp only [Bool.or_false, decide_eq_true_eq] at this
    unfold started at this
    omega

/-! ### One sink -/

/-- Everything ever sent to a sink, in order, the final task included. -/
def full (k : SinkSt M) : List (SItem M) := k.done ++ k.running.toList ++ k.q ++ (if k.exited then [.stop] else [])

/-- A sink taken by itself. -/
structure LInv (k : SinkSt M) : Prop where
  shape : ∃ pay, .stop ∉ pay ∧ full k = pay ++ (if k.stopSent then [.stop] else [])
  nostop : .stop ∉ k.done
  exit : k.exited = true → k.q = [] ∧ k.running = none
  des : k.destroyed = true → k.exited = true
  reap : k.reaping = true → k.stopSent = true ∧ k.destroyed = false
  blk : k.blocked = true → ∃ x, k.running = some x ∧ x ≠ .stop

theorem linv_fresh : LInv (SinkSt.fresh : SinkSt M) :=
  ⟨⟨[], by simp, rfl⟩, by simp [SinkSt.fresh], fun h => (by cases h), fun h => (by cases h), fun h => (by cases h), fun h => (by cases h)⟩

theorem linv_exit_stop {k : SinkSt M} (h : LInv k) (he : k.exited = true) : k.stopSent = true := by
  obtain ⟨pay, hp, hf⟩ := h.shape
  cases hs : k.stopSent with
  | true => rfl
  | false =>
    exfalso
    rw [full, if_pos he, hs, if_neg (by simp), List.append_nil] at hf
    exact hp (by rw [← hf]; simp)

theorem linv_alive {k : SinkSt M} (h : LInv k) (hs : k.stopSent = false) : k.exited = false ∧ k.destroyed = false ∧ k.reaping = false := by
  have he : k.exited = false := by
    cases he : k.exited
    · rfl
    · rw [linv_exit_stop h he] at hs; cases hs
  refine ⟨he, ?_, ?_⟩
  · cases hd : k.destroyed
    · rfl
    · rw [h.des hd] at he; cases he
  · cases hr : k.reaping
    · rfl
    · rw [(h.reap hr).1] at hs; cases hs

theorem linv_push {k : SinkSt M} (h : LInv k) (hs : k.stopSent = false) (x : SItem M) (hx : x ≠ .stop) : LInv (k.push x) := by
  obtain ⟨he, hd, hr⟩ := linv_alive h hs
  obtain ⟨pay, hp, hf⟩ := h.shape
  refine ⟨⟨pay ++ [x], ?_, ?_⟩, h.nostop, fun hx => ?_, h.des, h.reap, h.blk⟩
  · simp only [List.mem_append, List.mem_singleton, not_or]; exact ⟨hp, fun e => hx e.symm⟩
  · simp only [full, he, hs, SinkSt.push, Bool.false_eq_true, if_false, List.append_nil] at hf ⊢
    rw [← hf]; simp
  · have : k.exited = true := hx
    rw [he] at this; cases this

theorem linv_stop {k : SinkSt M} (h : LInv k) (hs : k.stopSent = false) (b : Bool) (r : Nat) :
    LInv { ({ k with refs := r } : SinkSt M).stop with reaping := b } := by
  obtain ⟨he, hd, hr⟩ := linv_alive h hs
  obtain ⟨pay, hp, hf⟩ := h.shape
  refine ⟨⟨pay, hp, ?_⟩, h.nostop, fun hx => ?_, h.des, fun _ => ⟨rfl, hd⟩, h.blk⟩
  · simp only [full, he, hs, SinkSt.stop, Bool.false_eq_true, if_false, List.append_nil, if_true] at hf ⊢
    rw [← hf]; simp
  · have : k.exited = true := hx
    rw [he] at this; cases this

theorem linv_refs {k : SinkSt M} (h : LInv k) (r : Nat) : LInv { k with refs := r } :=
  ⟨h.shape, h.nostop, h.exit, h.des, h.reap, h.blk⟩

theorem linv_destroy {k : SinkSt M} (h : LInv k) (he : k.exited = true) : LInv { k with destroyed := true, reaping := false } :=
  ⟨h.shape, h.nostop, h.exit, fun _ => he, fun hx => (by cases hx), h.blk⟩

theorem linv_destroy' {k : SinkSt M} (h : LInv k) (he : k.exited = true) (hr : k.reaping = false) : LInv { k with destroyed := true } :=
  ⟨h.shape, h.nostop, h.exit, fun _ => he, fun hx => (by have : k.reaping = true := hx; rw [hr] at this; cases this), h.blk⟩

theorem linv_pop {k : SinkSt M} (h : LInv k) {x : SItem M} {r : List (SItem M)} (hr : k.running = none) (he : k.exited = false)
    (hq : k.q = x :: r) : LInv { k with q := r, running := some x } := by
  obtain ⟨pay, hp, hf⟩ := h.shape
  refine ⟨⟨pay, hp, ?_⟩, h.nostop, fun hx => ?_, h.des, h.reap, fun hb => ?_⟩
  · simp only [full, hr, hq, he] at hf ⊢
    rw [← hf]; simp
  · have : k.exited = true := hx
    rw [he] at this; cases this
  · obtain ⟨y, hy, _⟩ := h.blk hb
    rw [hr] at hy; cases hy

theorem linv_finStop {k : SinkSt M} (h : LInv k) (hr : k.running = some .stop) : LInv { k with running := none, exited := true } := by
  have he : k.exited = false := by
    cases he : k.exited
    · rfl
    · have := (h.exit he).2; rw [hr] at this; cases this
  obtain ⟨pay, hp, hf⟩ := h.shape
  simp only [full, hr, he, Option.toList_some, Bool.false_eq_true, if_false, List.append_nil] at hf
  have hs : k.stopSent = true := by
    cases hs : k.stopSent with
    | true => rfl
    | false =>
      rw [hs, if_neg (by simp), List.append_nil] at hf
      exact absurd (by rw [← hf]; simp) hp
  rw [hs, if_pos rfl] at hf
  have hq : k.q = [] := by
    rcases List.eq_nil_or_concat k.q with h0 | ⟨q', y, hq⟩
    · exact h0
    · exfalso
      rw [hq, List.concat_eq_append, ← List.append_assoc] at hf
      have := List.append_inj_left' hf rfl
      exact hp (by rw [← this]; simp)
  refine ⟨⟨pay, hp, ?_⟩, h.nostop, fun _ => ⟨hq, rfl⟩, fun _ => rfl, h.reap, fun hb => ?_⟩
  · simp only [full, hq, hs, if_true, Option.toList_none, List.append_nil] at hf ⊢
    exact hf
  · obtain ⟨y, hy, hn⟩ := h.blk hb
    rw [hr] at hy; cases hy; exact absurd rfl hn

theorem linv_fin {k : SinkSt M} (h : LInv k) {x : SItem M} (hb : k.blocked = false) (hr : k.running = some x) (hx : x ≠ .stop) :
    LInv { k with running := none, done := k.done ++ [x] } := by
  obtain ⟨pay, hp, hf⟩ := h.shape
  refine ⟨⟨pay, hp, ?_⟩, ?_, fun he => ⟨(h.exit he).1, rfl⟩, h.des, h.reap, fun hb' => ?_⟩
  · simp only [full, hr] at hf ⊢
    rw [← hf]; simp
  · simp only [List.mem_append, List.mem_singleton, not_or]; exact ⟨h.nostop, fun e => hx e.symm⟩
  · have : k.blocked = true := hb'
    rw [hb] at this; cases this

theorem linv_block {k : SinkSt M} (h : LInv k) {x : SItem M} (hr : k.running = some x) (hx : x ≠ .stop) : LInv { k with blocked := true } :=
  ⟨h.shape, h.nostop, h.exit, h.des, h.reap, fun _ => ⟨x, hr, hx⟩⟩

/-! ### Sinks and owners -/

/-- The worker thread or the destructor of the worker waits for the thread of sink i. -/
def pcWaits (i : Nat) : WPc M → Bool
  | .rmWait j => decide (j = i)
  | .clrWait j _ => decide (j = i)
  | _ => false

def phaseWaits (i : Nat) : DPhase → Bool
  | .waitSink j => decide (j = i)
  | _ => false

def waitsOn (s : WState M) (i : Nat) : Bool := pcWaits i s.wpc || phaseWaits i s.phase

/-- Sinks and owners. -/
structure SInv (s : WState M) : Prop where
  fresh : ∀ i, s.n ≤ i → s.sk i = .fresh
  loc : ∀ i, LInv (s.sk i)
  own : ∀ i, i < s.n → owned s i = !(s.sk i).stopSent
  nodup : s.att.Nodup
  attsub : ∀ i ∈ s.att, .add i ∈ s.sub.take (started s)
  rest : ∀ x r, s.wpc = .sending x r → (∀ i ∈ r, i ∈ s.att) ∧ r.Nodup
  waits : ∀ i, waitsOn s i = true → i < s.n ∧ (s.sk i).stopSent = true ∧ (s.sk i).destroyed = false ∧ (s.sk i).reaping = false
  des : ∀ i, (s.sk i).stopSent = true → (s.sk i).destroyed = false → (s.sk i).reaping = true ∨ waitsOn s i = true

theorem updSink_self (sk : Nat → SinkSt M) (i : Nat) (f : SinkSt M → SinkSt M) : updSink sk i f i = f (sk i) := if_pos rfl
theorem updSink_ne (sk : Nat → SinkSt M) {i j : Nat} (f : SinkSt M → SinkSt M) (h : j ≠ i) : updSink sk i f j = sk j := if_neg h

theorem owned_iff {s : WState M} {i : Nat} : owned s i = true ↔
    0 < (s.sk i).refs ∨ i ∈ s.att ∨ adding s.calls i = true ∨ s.wpc.holds i = true := by
  simp [owned, or_assoc]

theorem att_lt {s : WState M} (hc : CallsInv s) (h : SInv s) {i : Nat} (hi : i ∈ s.att) : i < s.n :=
  calls_idsSub hc (List.mem_of_mem_take (h.attsub i hi))

theorem alive_of_owned {s : WState M} (h : SInv s) {i : Nat} (hi : i < s.n) (ho : owned s i = true) : (s.sk i).stopSent = false := by
  have := h.own i hi
  rw [ho] at this
  cases hs : (s.sk i).stopSent
  · rfl
  · rw [hs] at this; cases this

/-- Steps that change neither sinks nor owners. -/
theorem sinv_frame {s s' : WState M} (h : SInv s) (h1 : s'.sk = s.sk) (h2 : s'.n = s.n) (h3 : s'.att = s.att)
    (h4 : ∀ i, s'.wpc.holds i = s.wpc.holds i) (h5 : ∀ i, adding s'.calls i = adding s.calls i)
    (h6 : ∀ i, waitsOn s' i = waitsOn s i) (h7 : ∃ t, s'.sub = s.sub ++ t) (h8 : started s ≤ started s') (hle : started s ≤ s.sub.length)
    (h9 : ∀ x r, s'.wpc = .sending x r → (∀ i ∈ r, i ∈ s.att) ∧ r.Nodup) : SInv s' := by
  obtain ⟨a, b, c, d, e, f, g, i⟩ := h
  refine ⟨by rw [h1, h2]; exact a, by rw [h1]; exact b, ?_, by rw [h3]; exact d, ?_, ?_, ?_, ?_⟩
  · intro j hj
    rw [h2] at hj
    rw [h1, ← c j hj]
    unfold owned
    rw [h1, h3, h4, h5]
  · intro j hj
    rw [h3] at hj
    obtain ⟨t, ht⟩ := h7
    rw [ht]
    have h10 : (s.sub ++ t).take (started s) = s.sub.take (started s) := List.take_append_of_le_length hle
    have h11 := e j hj
    rw [← h10] at h11
    exact (List.take_subset_take_left _ h8) h11
  · intro x r hw; rw [h3]; exact h9 x r hw
  · intro j hj; rw [h1, h2]; rw [h6] at hj; exact g j hj
  · intro j; rw [h1, h6]; exact i j

theorem adding_append {calls : List WCall} {c : WCall} (hc : ∀ i, c.kind ≠ .add i) (i : Nat) :
    adding (calls ++ [c]) i = adding calls i := by
  simp [adding, List.any_append, hc i]

theorem adding_append_add {calls : List WCall} {c : WCall} {n : Nat} (hc : c.kind = .add n) (i : Nat) (hi : i ≠ n) :
    adding (calls ++ [c]) i = adding calls i := by
  have : ¬ (WKind.add n = WKind.add i) := fun h => by cases h; exact hi rfl
  simp [adding, List.any_append, hc, this]

/-- A step that changes one sink in a way that does not concern owners. -/
theorem sinv_upd {s s' : WState M} (h : SInv s) (i : Nat) (f : SinkSt M → SinkSt M) (hi : i < s.n)
    (hf : LInv (f (s.sk i))) (hr : (f (s.sk i)).refs = (s.sk i).refs) (hst : (f (s.sk i)).stopSent = (s.sk i).stopSent)
    (hd : (f (s.sk i)).destroyed = (s.sk i).destroyed) (hre : (f (s.sk i)).reaping = (s.sk i).reaping)
    (h1 : s'.sk = updSink s.sk i f) (h2 : s'.n = s.n) (h3 : s'.att = s.att) (h4 : ∀ i, s'.wpc.holds i = s.wpc.holds i)
    (h5 : s'.calls = s.calls) (h6 : ∀ i, waitsOn s' i = waitsOn s i) (h7 : ∃ t, s'.sub = s.sub ++ t) (h8 : started s ≤ started s')
    (hle : started s ≤ s.sub.length) (h9 : ∀ x r, s'.wpc = .sending x r → (∀ i ∈ r, i ∈ s.att) ∧ r.Nodup) : SInv s' := by
  have key : ∀ j, (updSink s.sk i f j).refs = (s.sk j).refs ∧ (updSink s.sk i f j).stopSent = (s.sk j).stopSent ∧
      (updSink s.sk i f j).destroyed = (s.sk j).destroyed ∧ (updSink s.sk i f j).reaping = (s.sk j).reaping := by
    intro j
    by_cases hj : j = i
    · subst hj; rw [updSink_self]; exact ⟨hr, hst, hd, hre⟩
    · rw [updSink_ne _ _ hj]; exact ⟨rfl, rfl, rfl, rfl⟩
  obtain ⟨a, b, c, d, e, g, w, z⟩ := h
  refine ⟨?_, ?_, ?_, by rw [h3]; exact d, ?_, ?_, ?_, ?_⟩
  · intro j hj
    rw [h2] at hj
    rw [h1, updSink_ne _ _ (by omega)]
    exact a j hj
  · intro j
    rw [h1]
    by_cases hj : j = i
    · subst hj; rw [updSink_self]; exact hf
    · rw [updSink_ne _ _ hj]; exact b j
  · intro j hj
    rw [h2] at hj
    rw [h1, (key j).2.1, ← c j hj]
    unfold owned
    rw [h1, (key j).1, h3, h4, h5]
  · intro j hj
    rw [h3] at hj
    obtain ⟨t, ht⟩ := h7
    rw [ht]
    have h10 : (s.sub ++ t).take (started s) = s.sub.take (started s) := List.take_append_of_le_length hle
    have h11 := e j hj
    rw [← h10] at h11
    exact (List.take_subset_take_left _ h8) h11
  · intro x r hw; rw [h3]; exact h9 x r hw
  · intro j hj; rw [h1, h2, (key j).2.1, (key j).2.2.1, (key j).2.2.2]; rw [h6] at hj; exact w j hj
  · intro j; rw [h1, h6, (key j).2.1, (key j).2.2.1, (key j).2.2.2]; exact z j

/-- A step that changes one sink and its owners. -/
theorem sinv_gen {s s' : WState M} (h : SInv s) (i : Nat) (f : SinkSt M → SinkSt M) (hi : i < s.n) (hf : LInv (f (s.sk i)))
    (h1 : s'.sk = updSink s.sk i f) (h2 : s'.n = s.n) (h3 : ∀ j ∈ s'.att, .add j ∈ s'.sub.take (started s')) (h3n : s'.att.Nodup)
    (h4 : ∀ j, j ≠ i → owned s' j = owned s j) (h4i : owned s' i = !(f (s.sk i)).stopSent)
    (h6 : ∀ j, j ≠ i → waitsOn s' j = waitsOn s j)
    (h6i : waitsOn s' i = true → (f (s.sk i)).stopSent = true ∧ (f (s.sk i)).destroyed = false ∧ (f (s.sk i)).reaping = false)
    (h6d : (f (s.sk i)).stopSent = true → (f (s.sk i)).destroyed = false → (f (s.sk i)).reaping = true ∨ waitsOn s' i = true)
    (h9 : ∀ x r, s'.wpc = .sending x r → (∀ i ∈ r, i ∈ s'.att) ∧ r.Nodup) : SInv s' := by
  obtain ⟨a, b, c, d, e, g, w, z⟩ := h
  refine ⟨?_, ?_, ?_, h3n, h3, h9, ?_, ?_⟩
  · intro j hj
    rw [h2] at hj
    rw [h1, updSink_ne _ _ (by omega)]
    exact a j hj
  · intro j
    rw [h1]
    by_cases hj : j = i
    · subst hj; rw [updSink_self]; exact hf
    · rw [updSink_ne _ _ hj]; exact b j
  · intro j hj
    rw [h2] at hj
    rw [h1]
    by_cases hj' : j = i
    · subst hj'; rw [updSink_self]; exact h4i
    · rw [updSink_ne _ _ hj', h4 j hj']; exact c j hj
  · intro j hj
    rw [h1, h2]
    by_cases hj' : j = i
    · subst hj'; rw [updSink_self]; exact ⟨hi, h6i hj⟩
    · rw [updSink_ne _ _ hj']; rw [h6 j hj'] at hj; exact w j hj
  · intro j
    rw [h1]
    by_cases hj' : j = i
    · subst hj'; rw [updSink_self]; exact h6d
    · rw [updSink_ne _ _ hj', h6 j hj']; exact z j

theorem updSink_id (sk : Nat → SinkSt M) (i : Nat) : sk = updSink sk i id := by
  funext j; unfold updSink; by_cases h : j = i <;> simp [h]

/-- Sinks in the list stay known. -/
theorem attsub_mono {s s' : WState M} (h : SInv s) (h1 : ∀ j ∈ s'.att, j ∈ s.att) (h2 : s'.sub = s.sub) (h3 : started s ≤ started s') :
    ∀ j ∈ s'.att, .add j ∈ s'.sub.take (started s') := by
  intro j hj
  rw [h2]
  exact (List.take_subset_take_left _ h3) (h.attsub j (h1 j hj))

theorem not_waits_of_alive {s : WState M} (h : SInv s) {i : Nat} (hs : (s.sk i).stopSent = false) : waitsOn s i = false := by
  cases hw : waitsOn s i
  · rfl
  · have := (h.waits i hw).2.1; rw [hs] at this; cases this

theorem adding_set {calls : List WCall} {k i : Nat} {c : WCall} (hc : calls[k]? = some c) (hk : c.kind ≠ .add i) :
    adding (calls.set k { c with returned := true }) i = adding calls i := by
  rw [Bool.eq_iff_iff, adding_iff, adding_iff]
  constructor
  · rintro ⟨d, hd, h1, h2⟩
    rcases mem_set_cases hd with hd | rfl
    · exact ⟨d, hd, h1, h2⟩
    · exact absurd h1 hk
  · rintro ⟨d, hd, h1, h2⟩
    rcases mem_set_of_mem (a := ({ c with returned := true } : WCall)) hc hd with hm | ⟨rfl, hm⟩
    · exact ⟨d, hm, h1, h2⟩
    · exact absurd h1 hk

theorem adding_mem {calls : List WCall} {k i : Nat} {c : WCall} (hc : calls[k]? = some c) (hk : c.kind = .add i) (hr : c.returned = false) :
    adding calls i = true := adding_iff.2 ⟨c, List.mem_iff_getElem?.2 ⟨k, hc⟩, hk, hr⟩

theorem sinv_start : SInv (WState.start : WState M) :=
  ⟨fun _ _ => rfl, fun _ => linv_fresh, fun i hi => (by cases hi), List.nodup_nil, fun i hi => (by cases hi),
    fun x r h => (by cases h), fun i hi => (by cases hi), fun i hi => (by cases hi)⟩

theorem sinv_tr {s s' : WState M} (ht : Tr s s') (hb : Book s) (hc : CallsInv s) (h : SInv s) : SInv s' := by
  have hle := hb.le
  cases ht with
  | ub => exact sinv_frame h rfl rfl rfl (fun _ => rfl) (fun _ => rfl) (fun _ => rfl) ⟨[], by simp⟩ (Nat.le_refl _) hle h.rest
  | save m _ => exact sinv_frame h rfl rfl rfl (fun _ => rfl) (fun _ => rfl) (fun _ => rfl) ⟨_, rfl⟩ (Nat.le_refl _) hle h.rest
  | fatal m _ => exact sinv_frame h rfl rfl rfl (fun _ => rfl) (fun _ => rfl) (fun _ => rfl) ⟨_, rfl⟩ (Nat.le_refl _) hle h.rest
  | rmQ i hi _ => exact sinv_frame h rfl rfl rfl (fun _ => rfl) (fun j => adding_append (by simp) j) (fun _ => rfl) ⟨_, rfl⟩ (Nat.le_refl _) hle h.rest
  | rmN i hi _ => exact sinv_frame h rfl rfl rfl (fun _ => rfl) (fun j => adding_append (by simp) j) (fun _ => rfl) ⟨[], by simp⟩ (Nat.le_refl _) hle h.rest
  | clrQ _ => exact sinv_frame h rfl rfl rfl (fun _ => rfl) (fun j => adding_append (by simp) j) (fun _ => rfl) ⟨_, rfl⟩ (Nat.le_refl _) hle h.rest
  | clrN _ => exact sinv_frame h rfl rfl rfl (fun _ => rfl) (fun j => adding_append (by simp) j) (fun _ => rfl) ⟨[], by simp⟩ (Nat.le_refl _) hle h.rest
  | holdFail => exact sinv_frame h rfl rfl rfl (fun _ => rfl) (fun _ => rfl) (fun _ => rfl) ⟨[], by simp⟩ (Nat.le_refl _) hle h.rest
  | dStart hp =>
    exact sinv_frame h rfl rfl rfl (fun _ => rfl) (fun _ => rfl) (fun j => by simp only [waitsOn, hp]; rfl) ⟨_, rfl⟩ (Nat.le_refl _) hle h.rest
  | dStop p hp _ =>
    exact sinv_frame h rfl rfl rfl (fun _ => rfl) (fun _ => rfl) (fun j => by simp only [waitsOn, hp]; rfl) ⟨_, rfl⟩ (Nat.le_refl _) hle h.rest
  | dJoin hp _ =>
    exact sinv_frame h rfl rfl rfl (fun _ => rfl) (fun _ => rfl) (fun j => by simp only [waitsOn, hp]; rfl) ⟨[], by simp⟩ (Nat.le_refl _) hle h.rest
  | dRet hp _ =>
    exact sinv_frame h rfl rfl rfl (fun _ => rfl) (fun _ => rfl) (fun j => by simp only [waitsOn, hp]; rfl) ⟨[], by simp⟩ (Nat.le_refl _) hle h.rest
  | addQ hbn =>
    have hnot : ∀ j ∈ s.att, j ≠ s.n := fun j hj hjn => by have := att_lt hc h hj; omega
    have hfr := h.fresh s.n (Nat.le_refl _)
    have hsk : updSink s.sk s.n (fun _ => .fresh) = s.sk := by
      funext j; by_cases hj : j = s.n
      · subst hj; rw [updSink_self, hfr]
      · rw [updSink_ne _ _ hj]
    obtain ⟨a, b, c, d, e, g, w, z⟩ := h
    refine ⟨?_, ?_, ?_, d, ?_, g, ?_, ?_⟩
    · intro j hj; simp only [hsk]; exact a j (by simp only at hj; omega)
    · intro j; simp only [hsk]; exact b j
    · intro j hj
      simp only [hsk]
      by_cases hjn : j = s.n
      · subst hjn
        rw [hfr]
        rw [show (!(SinkSt.fresh : SinkSt M).stopSent) = true from rfl, owned_iff]
        exact Or.inr (Or.inr (Or.inl (adding_iff.2 ⟨_, List.mem_append_right _ (List.mem_singleton.2 rfl), rfl, rfl⟩)))
      · rw [← c j (by simp only at hj; omega)]
        simp only [owned, hsk, adding_append_add (c := ⟨.add s.n, some s.sub.length, false⟩) rfl j hjn]
    · intro j hj
      have h1 := e j hj
      simp only [started] at h1 hle ⊢
      rw [List.take_append_of_le_length hle]
      exact h1
    · intro j hj; simp only [hsk]; have := w j hj; exact ⟨Nat.lt_succ_of_lt this.1, this.2⟩
    · intro j; simp only [hsk]; exact z j
  | addN hbn hr =>
    have hfr := h.fresh s.n (Nat.le_refl _)
    have hsk : updSink s.sk s.n (fun _ => .fresh) = s.sk := by
      funext j; by_cases hj : j = s.n
      · subst hj; rw [updSink_self, hfr]
      · rw [updSink_ne _ _ hj]
    obtain ⟨a, b, c, d, e, g, w, z⟩ := h
    refine ⟨?_, ?_, ?_, d, e, g, ?_, ?_⟩
    · intro j hj; simp only [hsk]; exact a j (by simp only at hj; omega)
    · intro j; simp only [hsk]; exact b j
    · intro j hj
      simp only [hsk]
      by_cases hjn : j = s.n
      · subst hjn
        rw [hfr]
        rw [show (!(SinkSt.fresh : SinkSt M).stopSent) = true from rfl, owned_iff]
        exact Or.inr (Or.inr (Or.inl (adding_iff.2 ⟨_, List.mem_append_right _ (List.mem_singleton.2 rfl), rfl, rfl⟩)))
      · rw [← c j (by simp only at hj; omega)]
        simp only [owned, hsk, adding_append_add (c := ⟨.add s.n, none, false⟩) rfl j hjn]
    · intro j hj; simp only [hsk]; have := w j hj; exact ⟨Nat.lt_succ_of_lt this.1, this.2⟩
    · intro j; simp only [hsk]; exact z j
  | retAddKeep k i c hk hr hrd hki ho =>
    have hi : i < s.n := hc.ids c (List.mem_iff_getElem?.2 ⟨k, hk⟩) i (Or.inl hki)
    have hal := alive_of_owned h hi (owned_iff.2 (Or.inr (Or.inr (Or.inl (adding_mem hk hki hr)))))
    refine sinv_gen h i id hi (h.loc i) (updSink_id _ _) rfl h.attsub h.nodup ?_ ?_ (fun _ _ => rfl) ?_ ?_ h.rest
    · intro j hj
      have : c.kind ≠ .add j := by rw [hki]; intro e; cases e; exact hj rfl
      simp only [owned, adding_set hk this]
    · rw [ho]; simp only [id, hal]; rfl
    · intro hw; have := not_waits_of_alive h hal; exact absurd hw (by simp only [waitsOn] at this ⊢; rw [this]; simp)
    · intro hw; simp only [id, hal] at hw; cases hw
  | retAddDrop k i c hk hr hrd hki ho =>
    have hi : i < s.n := hc.ids c (List.mem_iff_getElem?.2 ⟨k, hk⟩) i (Or.inl hki)
    have hal := alive_of_owned h hi (owned_iff.2 (Or.inr (Or.inr (Or.inl (adding_mem hk hki hr)))))
    refine sinv_gen h i (fun k => { k.stop with reaping := true }) hi (linv_stop (h.loc i) hal true _) rfl rfl h.attsub h.nodup ?_ ?_ (fun _ _ => rfl) ?_ (fun _ _ => Or.inl rfl) h.rest
    · intro j hj
      have : c.kind ≠ .add j := by rw [hki]; intro e; cases e; exact hj rfl
      simp only [owned, adding_set hk this, updSink_ne _ _ hj]
    · have : (!({ (s.sk i).stop with reaping := true } : SinkSt M).stopSent) = false := rfl
      simp only [this]
      rw [← ho]
      simp only [owned, updSink_self]; rfl
    · intro hw; have := not_waits_of_alive h hal; exact absurd hw (by simp only [waitsOn] at this ⊢; rw [this]; simp)
  | retOther k c hk hr hrd hkk =>
    exact sinv_frame h rfl rfl rfl (fun _ => rfl) (fun j => adding_set hk (hkk j)) (fun _ => rfl) ⟨[], by simp⟩ (Nat.le_refl _) hle h.rest
  | hold i hi ho =>
    have hal := alive_of_owned h hi ho
    refine sinv_gen h i (fun k => { k with refs := k.refs + 1 }) hi (linv_refs (h.loc i) _) rfl rfl h.attsub h.nodup ?_ ?_ (fun _ _ => rfl) ?_ ?_ h.rest
    · intro j hj; simp only [owned, updSink_ne _ _ hj]
    · rw [hal]; show owned _ i = true; rw [owned_iff]; left; simp only [updSink_self]; exact Nat.succ_pos _
    · intro hw; have := not_waits_of_alive h hal; exact absurd hw (by simp only [waitsOn] at this ⊢; rw [this]; simp)
    · intro hw; rw [hal] at hw; cases hw
  | call i c hi hr =>
    have hal := alive_of_owned h hi (owned_iff.2 (Or.inl hr))
    exact sinv_upd h i (·.push (.call c)) hi (linv_push (h.loc i) hal _ (by simp)) rfl rfl rfl rfl rfl rfl rfl (fun _ => rfl) rfl (fun _ => rfl) ⟨[], by simp⟩
      (Nat.le_refl _) hle h.rest
  | relKeep i hi hr ho =>
    have hal := alive_of_owned h hi (owned_iff.2 (Or.inl hr))
    refine sinv_gen h i (fun k => { k with refs := k.refs - 1 }) hi (linv_refs (h.loc i) _) rfl rfl h.attsub h.nodup ?_ ?_ (fun _ _ => rfl) ?_ ?_ h.rest
    · intro j hj; simp only [owned, updSink_ne _ _ hj]
    · rw [hal, ho]; rfl
    · intro hw; have := not_waits_of_alive h hal; exact absurd hw (by simp only [waitsOn] at this ⊢; rw [this]; simp)
    · intro hw; rw [hal] at hw; cases hw
  | relDrop i hi hr ho =>
    have hal := alive_of_owned h hi (owned_iff.2 (Or.inl hr))
    refine sinv_gen h i (fun k => { ({ k with refs := k.refs - 1 } : SinkSt M).stop with reaping := true }) hi (linv_stop (h.loc i) hal true _) rfl rfl h.attsub h.nodup ?_ ?_ (fun _ _ => rfl) ?_ (fun _ _ => Or.inl rfl) h.rest
    · intro j hj; simp only [owned, updSink_ne _ _ hj]
    · show owned _ i = false
      rw [← ho]
      simp only [owned, updSink_self]; rfl
    · intro hw; have := not_waits_of_alive h hal; exact absurd hw (by simp only [waitsOn] at this ⊢; rw [this]; simp)
  | reap i hi hr he =>
    have hst := linv_exit_stop (h.loc i) he
    have hnw : waitsOn s i = false := by
      cases hw : waitsOn s i
      · rfl
      · have := (h.waits i hw).2.2.2; rw [hr] at this; cases this
    refine sinv_gen h i (fun k => { k with destroyed := true, reaping := false }) hi (linv_destroy (h.loc i) he) rfl rfl h.attsub h.nodup ?_ ?_ (fun _ _ => rfl) ?_ ?_ h.rest
    · intro j hj; simp only [owned, updSink_ne _ _ hj]
    · have := h.own i hi
      rw [← this]; simp only [owned, updSink_self]
    · intro hw; exact absurd hw (by simp only [waitsOn] at hnw ⊢; rw [hnw]; simp)
    · intro _ hd; cases hd
  | dKeep i r hp ha ho =>
    have hmem : i ∈ s.att := by rw [ha]; simp
    have hi := att_lt hc h hmem
    have hal := alive_of_owned h hi (owned_iff.2 (Or.inr (Or.inl hmem)))
    have hnd := h.nodup
    rw [ha, List.nodup_cons] at hnd
    refine sinv_gen h i id hi (h.loc i) (updSink_id _ _) rfl (attsub_mono h (fun j hj => by rw [ha]; exact List.mem_cons_of_mem _ hj) rfl (Nat.le_refl _))
      hnd.2 ?_ ?_ (fun _ _ => rfl) ?_ ?_ ?_
    · intro j hj; simp only [owned, ha, List.mem_cons, hj, false_or]
    · rw [ho]; simp only [id, hal]; rfl
    · intro hw; have := not_waits_of_alive h hal; exact absurd hw (by simp only [waitsOn] at this ⊢; rw [this]; simp)
    · intro hw; simp only [id, hal] at hw; cases hw
    · intro x r' hw
      have := (hb.gone (by rw [hp]; rfl)).2
      simp only at hw; rw [this] at hw; cases hw
  | dDrop i r hp ha ho =>
    have hmem : i ∈ s.att := by rw [ha]; simp
    have hi := att_lt hc h hmem
    have hal := alive_of_owned h hi (owned_iff.2 (Or.inr (Or.inl hmem)))
    have hnd := h.nodup
    rw [ha, List.nodup_cons] at hnd
    have hend := (hb.gone (by rw [hp]; rfl)).2
    refine sinv_gen h i (·.stop) hi (linv_stop (h.loc i) hal _ _) rfl rfl (attsub_mono h (fun j hj => by rw [ha]; exact List.mem_cons_of_mem _ hj) rfl (Nat.le_refl _))
      hnd.2 ?_ ?_ ?_ ?_ ?_ ?_
    · intro j hj; simp only [owned, ha, List.mem_cons, hj, false_or, updSink_ne _ _ hj]
    · show owned _ i = false
      rw [← ho]
      simp only [owned, updSink_self]; rfl
    · intro j hj; simp only [waitsOn, hp, phaseWaits, hend, pcWaits]; simp [Ne.symm hj]
    · intro _; have := linv_alive (h.loc i) hal; exact ⟨rfl, this.2.1, this.2.2⟩
    · intro _ _; right; simp [waitsOn, phaseWaits]
    · intro x r' hw
      simp only at hw; rw [hend] at hw; cases hw
  | dReap i hp he =>
    have hw : waitsOn s i = true := by simp [waitsOn, hp, phaseWaits]
    obtain ⟨hi, hst, hds, hre⟩ := h.waits i hw
    have hend := (hb.gone (by rw [hp]; rfl)).2
    refine sinv_gen h i (fun k => { k with destroyed := true }) hi (linv_destroy' (h.loc i) he hre) rfl rfl h.attsub h.nodup ?_ ?_ ?_ ?_ ?_ h.rest
    · intro j hj; simp only [owned, updSink_ne _ _ hj]
    · have := h.own i hi
      rw [← this]; simp only [owned, updSink_self]
    · intro j hj; simp only [waitsOn, hp, phaseWaits, hend, pcWaits]; simp [Ne.symm hj]
    · intro hw'; simp [waitsOn, hend, pcWaits, phaseWaits] at hw'
    · intro _ hd; cases hd
  | tSaveNone m r hw hq ha =>
    exact sinv_frame h rfl rfl rfl (fun _ => rfl) (fun _ => rfl) (fun _ => rfl) ⟨[], by simp⟩ (by simp only [started]; omega) hle
      (fun x r hx => by simp only at hx; rw [hw] at hx; cases hx)
  | tSave m r hw hq ha =>
    exact sinv_frame h rfl rfl rfl (fun _ => by rw [hw]; rfl) (fun _ => rfl) (fun _ => by simp only [waitsOn, hw]; rfl) ⟨[], by simp⟩
      (by simp only [started, hw, pcBusy]; omega) hle (fun x r hx => by cases hx; exact ⟨fun i hi => hi, h.nodup⟩)
  | tFatal m r hw hq =>
    exact sinv_frame h rfl rfl rfl (fun _ => by rw [hw]; rfl) (fun _ => rfl) (fun _ => by simp only [waitsOn, hw]; rfl) ⟨[], by simp⟩
      (by simp only [started, hw, pcBusy]; omega) hle (fun x r hx => by cases hx; exact ⟨fun i hi => hi, h.nodup⟩)
  | tAdd i r hw hq =>
    have hg : s.phase.queueGone = false := by
      cases hg : s.phase.queueGone
      · rfl
      · rw [(hb.gone hg).1] at hq; cases hq
    have hst : started s = s.completed := by unfold started; rw [hw]; rfl
    have hdr := hb.queue hg
    rw [hst, hq] at hdr
    obtain ⟨e1, e2, e3, e4⟩ := take_lemma hdr.symm
    have hadd := wq_adding hb hc (i := i) (by rw [hq]; simp)
    have hi : i < s.n := calls_idsSub hc (List.mem_iff_getElem?.2 ⟨_, e1⟩)
    have hal := alive_of_owned h hi (owned_iff.2 (Or.inr (Or.inr (Or.inl hadd))))
    have hnin : i ∉ s.att := by
      intro hm
      have h1 := h.attsub i hm
      rw [hst] at h1
      have h2 := hc.nodup
      rw [← List.take_append_drop s.completed s.sub, List.filterMap_append, List.nodup_append] at h2
      refine h2.2.2 i (addId_mem.2 h1) i (addId_mem.2 ?_) rfl
      rw [← hdr]; simp
    refine sinv_gen h i id hi (h.loc i) (updSink_id _ _) rfl ?_ ?_ ?_ ?_ (fun _ _ => rfl) ?_ ?_ ?_
    · intro j hj
      have hs' : started { s with wq := r, att := s.att ++ [i], completed := s.completed + 1 } = s.completed + 1 := by
        simp only [started, hw, pcBusy]
      rw [hs']
      simp only at hj ⊢
      rw [e2]
      rw [List.mem_append, List.mem_singleton] at hj
      rcases hj with hj | rfl
      · have := h.attsub j hj; rw [hst] at this; exact List.mem_append_left _ this
      · simp
    · simp only [List.nodup_append]
      refine ⟨h.nodup, by simp, ?_⟩
      intro a ha b hb' hab
      rw [List.mem_singleton] at hb'; subst hb'; subst hab; exact hnin ha
    · intro j hj; simp only [owned, List.mem_append, List.mem_singleton, hj, or_false]
    · show owned _ i = !(s.sk i).stopSent
      rw [hal]; rw [show (!false) = true from rfl, owned_iff]; exact Or.inr (Or.inr (Or.inl hadd))
    · intro hww; have := not_waits_of_alive h hal; exact absurd hww (by simp only [waitsOn] at this ⊢; rw [this]; simp)
    · intro hs _; simp only [id, hal] at hs; cases hs
    · intro x r hx; simp only at hx; rw [hw] at hx; cases hx
  | tRmYes i r hw hq ho =>
    by_cases hi : i < s.n
    · have hal := alive_of_owned h hi ho
      refine sinv_gen h i id hi (h.loc i) (updSink_id _ _) rfl
        (attsub_mono h (fun j hj => (List.mem_filter.1 hj).1) rfl (by simp only [started, hw, pcBusy]; omega)) (h.nodup.filter _) ?_ ?_ ?_ ?_ ?_ ?_
      · intro j hj; simp only [owned, List.mem_filter, hj, ne_eq, not_false_eq_true, decide_true, and_true, hw, WPc.holds]; simp [Ne.symm hj]
      · show owned _ i = !(s.sk i).stopSent
        rw [hal, show (!false) = true from rfl, owned_iff]; right; right; right; simp [WPc.holds]
      · intro j hj; simp only [waitsOn, hw]; rfl
      · intro hww; have := not_waits_of_alive h hal; rw [waitsOn, hw] at this; simp only [waitsOn] at hww; exact absurd hww (by rw [show pcWaits i (WPc.rmHeld i : WPc M) = pcWaits i (WPc.idle : WPc M) from rfl, this]; simp)
      · intro hs _; simp only [id, hal] at hs; cases hs
      · intro x r hx; cases hx
    · -- not possible: the sink of a queued removal exists
      exfalso
      have hg : s.phase.queueGone = false := by
        cases hg : s.phase.queueGone
        · rfl
        · rw [(hb.gone hg).1] at hq; cases hq
      rcases owned_iff.1 ho with h1 | h1 | h1 | h1
      · rw [h.fresh i (by omega)] at h1; cases h1
      · exact hi (att_lt hc h h1)
      · obtain ⟨c, h2, h3, _⟩ := adding_iff.1 h1
        exact hi (hc.ids c h2 i (Or.inl h3))
      · rw [hw] at h1; cases h1
  | tRmNo i r hw hq ho =>
    exact sinv_frame h rfl rfl rfl (fun _ => rfl) (fun _ => rfl) (fun _ => rfl) ⟨[], by simp⟩ (by simp only [started]; omega) hle
      (fun x r hx => by simp only at hx; rw [hw] at hx; cases hx)
  | tClear r hw hq =>
    exact sinv_frame h rfl rfl rfl (fun _ => by rw [hw]; rfl) (fun _ => rfl) (fun _ => by simp only [waitsOn, hw]; rfl) ⟨[], by simp⟩
      (by simp only [started, hw, pcBusy]; omega) hle (fun x r hx => by cases hx)
  | tDone r hw hq =>
    exact sinv_frame h rfl rfl rfl (fun _ => by rw [hw]; rfl) (fun _ => rfl) (fun _ => by simp only [waitsOn, hw]; rfl) ⟨[], by simp⟩
      (by simp only [started, hw, pcBusy]; omega) hle (fun x r hx => by cases hx)
  | send x i rest hw =>
    have hr := h.rest _ _ hw
    have hmem : i ∈ s.att := hr.1 i (by simp)
    have hi := att_lt hc h hmem
    have hal := alive_of_owned h hi (owned_iff.2 (Or.inr (Or.inl hmem)))
    have hx : x ≠ .stop := by
      have := hb.task
      rw [hw] at this
      intro hx; subst hx; exact this
    refine sinv_upd h i (·.push x) hi (linv_push (h.loc i) hal x hx) rfl rfl rfl rfl rfl rfl rfl (fun _ => by rw [hw]; rfl) rfl (fun _ => by simp only [waitsOn, hw]; rfl)
      ⟨[], by simp⟩ (by simp only [started, hw, pcBusy]; omega) hle ?_
    intro y r hy
    cases hy
    exact ⟨fun j hj => hr.1 j (List.mem_cons_of_mem _ hj), (List.nodup_cons.1 hr.2).2⟩
  | sendEndF m hw =>
    exact sinv_frame h rfl rfl rfl (fun _ => by rw [hw]; rfl) (fun _ => rfl) (fun _ => by simp only [waitsOn, hw]; rfl) ⟨[], by simp⟩
      (by simp only [started, hw, pcBusy]; omega) hle (fun x r hx => by cases hx)
  | sendEnd x hw hx =>
    exact sinv_frame h rfl rfl rfl (fun _ => by rw [hw]; rfl) (fun _ => rfl) (fun _ => by simp only [waitsOn, hw]; rfl) ⟨[], by simp⟩
      (by simp only [started, hw, pcBusy]; omega) hle (fun x r hx => by cases hx)
  | rmKeep i hw ho =>
    by_cases hi : i < s.n
    · have hal := alive_of_owned h hi (owned_iff.2 (by right; right; right; rw [hw]; simp [WPc.holds]))
      refine sinv_gen h i id hi (h.loc i) (updSink_id _ _) rfl (attsub_mono h (fun j hj => hj) rfl (by simp only [started, hw, pcBusy]; omega)) h.nodup ?_ ?_ ?_ ?_ ?_ ?_
      · intro j hj; simp only [owned, hw, WPc.holds]; simp [Ne.symm hj]
      · show owned _ i = !(s.sk i).stopSent
        rw [hal, show (!false) = true from rfl, ← ho]; rfl
      · intro j hj; simp only [waitsOn, hw]; rfl
      · intro hww; have := not_waits_of_alive h hal; rw [waitsOn, hw] at this; simp only [waitsOn] at hww; exact absurd hww (by rw [show pcWaits i (WPc.idle : WPc M) = pcWaits i (WPc.rmHeld i : WPc M) from rfl, this]; simp)
      · intro hs _; simp only [id, hal] at hs; cases hs
      · intro x r hx; cases hx
    · exfalso
      rcases owned_iff.1 ho with h1 | h1 | h1 | h1
      · simp only at h1; rw [h.fresh i (by omega)] at h1; cases h1
      · exact hi (att_lt hc h h1)
      · obtain ⟨c, h2, h3, _⟩ := adding_iff.1 h1
        exact hi (hc.ids c h2 i (Or.inl h3))
      · cases h1
  | rmDrop i hw ho =>
    have hi : i < s.n := by
      have := hb.task
      rw [hw] at this
      exact hc.rms i (List.mem_iff_getElem?.2 ⟨_, this⟩)
    have hal := alive_of_owned h hi (owned_iff.2 (by right; right; right; rw [hw]; simp [WPc.holds]))
    refine sinv_gen h i (·.stop) hi (linv_stop (h.loc i) hal _ _) rfl rfl (attsub_mono h (fun j hj => hj) rfl (by simp only [started, hw, pcBusy]; omega))
      h.nodup ?_ ?_ ?_ ?_ ?_ ?_
    · intro j hj; simp only [owned, updSink_ne _ _ hj, hw, WPc.holds]; simp [Ne.symm hj]
    · show owned _ i = false
      rw [← ho]
      simp only [owned, updSink_self]; rfl
    · intro j hj; simp only [waitsOn, hw, pcWaits]; simp [Ne.symm hj]
    · intro _; have := linv_alive (h.loc i) hal; exact ⟨rfl, this.2.1, this.2.2⟩
    · intro _ _; right; simp [waitsOn, pcWaits]
    · intro x r' hx; cases hx
  | rmReap i hw he =>
    have hww : waitsOn s i = true := by simp [waitsOn, hw, pcWaits]
    obtain ⟨hi, hst, hds, hre⟩ := h.waits i hww
    refine sinv_gen h i (fun k => { k with destroyed := true }) hi (linv_destroy' (h.loc i) he hre) rfl rfl (attsub_mono h (fun j hj => hj) rfl (by simp only [started, hw, pcBusy]; omega)) h.nodup ?_ ?_ ?_ ?_ ?_ ?_
    · intro j hj; simp only [owned, updSink_ne _ _ hj, hw]; rfl
    · have := h.own i hi
      rw [← this]; simp only [owned, updSink_self, hw]; rfl
    · intro j hj; simp only [waitsOn, hw, pcWaits]; simp [Ne.symm hj]
    · intro hw'
      exfalso
      have hp : s.phase = .waitSink i := by
        simp only [waitsOn, pcWaits, Bool.false_or] at hw'
        cases hph : s.phase <;> rw [hph] at hw' <;> simp [phaseWaits] at hw'
        rw [hw']
      have := (hb.gone (by rw [hp]; rfl)).2
      rw [hw] at this; cases this
    · intro _ hd; cases hd
    · intro x r hx; cases hx
  | clrEndF hw ha =>
    exact sinv_frame h rfl rfl rfl (fun _ => by rw [hw]; rfl) (fun _ => rfl) (fun _ => by simp only [waitsOn, hw]; rfl) ⟨[], by simp⟩
      (by simp only [started, hw, pcBusy]; omega) hle (fun x r hx => by cases hx)
  | clrEnd hw ha =>
    exact sinv_frame h rfl rfl rfl (fun _ => by rw [hw]; rfl) (fun _ => rfl) (fun _ => by simp only [waitsOn, hw]; rfl) ⟨[], by simp⟩
      (by simp only [started, hw, pcBusy]; omega) hle (fun x r hx => by cases hx)
  | clrKeep f i r hw ha ho =>
    have hmem : i ∈ s.att := by rw [ha]; simp
    have hi := att_lt hc h hmem
    have hal := alive_of_owned h hi (owned_iff.2 (Or.inr (Or.inl hmem)))
    have hnd := h.nodup
    rw [ha, List.nodup_cons] at hnd
    refine sinv_gen h i id hi (h.loc i) (updSink_id _ _) rfl (attsub_mono h (fun j hj => by rw [ha]; exact List.mem_cons_of_mem _ hj) rfl (Nat.le_refl _))
      hnd.2 ?_ ?_ (fun _ _ => rfl) ?_ ?_ ?_
    · intro j hj; simp only [owned, ha, List.mem_cons, hj, false_or]
    · rw [ho]; simp only [id, hal]; rfl
    · intro hw; have := not_waits_of_alive h hal; exact absurd hw (by simp only [waitsOn] at this ⊢; rw [this]; simp)
    · intro hw; simp only [id, hal] at hw; cases hw
    · intro x r' hx
      simp only at hx; rw [hw] at hx; cases hx
  | clrDrop f i r hw ha ho =>
    have hmem : i ∈ s.att := by rw [ha]; simp
    have hi := att_lt hc h hmem
    have hal := alive_of_owned h hi (owned_iff.2 (Or.inr (Or.inl hmem)))
    have hnd := h.nodup
    rw [ha, List.nodup_cons] at hnd
    refine sinv_gen h i (·.stop) hi (linv_stop (h.loc i) hal _ _) rfl rfl (attsub_mono h (fun j hj => by rw [ha]; exact List.mem_cons_of_mem _ hj) rfl (by simp only [started, hw, pcBusy]; omega))
      hnd.2 ?_ ?_ ?_ ?_ ?_ ?_
    · intro j hj; simp only [owned, ha, List.mem_cons, hj, false_or, updSink_ne _ _ hj, hw]; rfl
    · show owned _ i = false
      rw [← ho]
      simp only [owned, updSink_self, hw]; rfl
    · intro j hj; simp only [waitsOn, hw, pcWaits]; simp [Ne.symm hj]
    · intro _; have := linv_alive (h.loc i) hal; exact ⟨rfl, this.2.1, this.2.2⟩
    · intro _ _; right; simp [waitsOn, pcWaits]
    · intro x r' hx; cases hx
  | clrReap i f hw he =>
    have hww : waitsOn s i = true := by simp [waitsOn, hw, pcWaits]
    obtain ⟨hi, hst, hds, hre⟩ := h.waits i hww
    refine sinv_gen h i (fun k => { k with destroyed := true }) hi (linv_destroy' (h.loc i) he hre) rfl rfl (attsub_mono h (fun j hj => hj) rfl (by simp only [started, hw, pcBusy]; omega)) h.nodup ?_ ?_ ?_ ?_ ?_ ?_
    · intro j hj; simp only [owned, updSink_ne _ _ hj, hw]; rfl
    · have := h.own i hi
      rw [← this]; simp only [owned, updSink_self, hw]; rfl
    · intro j hj; simp only [waitsOn, hw, pcWaits]; simp [Ne.symm hj]
    · intro hw'
      exfalso
      have hp : s.phase = .waitSink i := by
        simp only [waitsOn, pcWaits, Bool.false_or] at hw'
        cases hph : s.phase <;> rw [hph] at hw' <;> simp [phaseWaits] at hw'
        rw [hw']
      have := (hb.gone (by rw [hp]; rfl)).2
      rw [hw] at this; cases this
    · intro _ hd; cases hd
    · intro x r hx; cases hx
  | sPop i x r hi hr he hq =>
    exact sinv_upd h i (fun k => { k with q := r, running := some x }) hi (linv_pop (h.loc i) hr he hq) rfl rfl rfl rfl rfl rfl rfl (fun _ => rfl) rfl (fun _ => rfl) ⟨[], by simp⟩ (Nat.le_refl _) hle h.rest
  | sFinStop i hi hbl hr =>
    exact sinv_upd h i (fun k => { k with running := none, exited := true }) hi (linv_finStop (h.loc i) hr) rfl rfl rfl rfl rfl rfl rfl (fun _ => rfl) rfl (fun _ => rfl) ⟨[], by simp⟩ (Nat.le_refl _) hle h.rest
  | sFin i x hi hbl hr hx =>
    exact sinv_upd h i (fun k => { k with running := none, done := k.done ++ [x] }) hi (linv_fin (h.loc i) hbl hr hx) rfl rfl rfl rfl rfl rfl rfl (fun _ => rfl) rfl (fun _ => rfl) ⟨[], by simp⟩ (Nat.le_refl _) hle h.rest
  | sFatal i x m hi hbl hr hx hbn =>
    exact sinv_upd h i (fun k => { k with blocked := true }) hi (linv_block (h.loc i) hr hx) rfl rfl rfl rfl rfl rfl rfl (fun _ => rfl) rfl (fun _ => rfl) ⟨_, rfl⟩ (Nat.le_refl _) hle h.rest

end G3.Props
