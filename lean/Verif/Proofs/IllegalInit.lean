import Verif.Spec.IllegalInit
/- C104: invariants. -/
namespace G3

/-- Has the thread locked the mutex? -/
def jHolds : JPc → Bool
  | .initIn _ => true
  | .shutIn => true
  | .exiting _ => true
  | .dtor _ _ (some _) => true
  | .dtor _ .inside none => true
  | _ => false

/-- In `exit`: the workers that have not passed the test of `~LogWorker` yet. -/
def jTodo : JPc → Option (List Nat)
  | .exiting r => some r
  | .dtor _ .drain (some r) => some r
  | .dtor w _ (some r) => some (w :: r)
  | _ => none

theorem jTodo_holds {p : JPc} {r : List Nat} (h : jTodo p = some r) : jHolds p = true := by
  cases p with
  | dtor w ph k => cases k <;> cases ph <;> simp_all [jTodo, jHolds]
  | _ => simp_all [jTodo, jHolds]

structure JInv (s : JState) : Prop where
  held : ∀ t, jHolds (s.pcs t) = true → s.lock = some t
  holder : ∀ t, s.lock = some t → jHolds (s.pcs t) = true
  rule : Spec.inUse s.hist none = some s.active
  sent : ∀ w, (s.ws w).sent = (s.ws w).got ++ (s.ws w).pending
  before : (∀ t, jTodo (s.pcs t) = none) → ∀ i, (s.ws i).static = true → (s.ws i).alive = true
  inExit : ∀ t r, jTodo (s.pcs t) = some r → ∀ i, i < s.n → (s.ws i).static = true →
    i ∈ r ∨ (s.active ≠ some i ∧ ((s.ws i).pending = [] ∨ s.pcs t = .dtor i .drain (some r)))
  over : s.over ≠ none → s.over = some 1 ∧ ∃ t, s.pcs t = .exiting []
  outside : ∀ t w r, s.pcs t ≠ .dtor w .inside (some r)

theorem jInv_start (n : Nat) (st : Nat → Bool) : JInv (JState.start n st) :=
  ⟨fun _ h => Bool.noConfusion h, (fun _ h => by simp [JState.start] at h), rfl, fun _ => rfl, fun _ _ _ => rfl, (fun _ _ h => by simp [JState.start, jTodo] at h), fun h => absurd rfl h,
    fun _ _ _ h => JPc.noConfusion h⟩

theorem inUse_append (l : List JEvent) (e : JEvent) (x a b : Option Nat) (h : Spec.inUse l x = some a) (he : Spec.inUse [e] a = some b) :
    Spec.inUse (l ++ [e]) x = some b := by
  induction l generalizing x with
  | nil => rw [show a = x by simpa [Spec.inUse] using h.symm] at he; exact he
  | cons c l ih =>
    cases c with
    | on w => cases x <;> simp_all [Spec.inUse]
    | off => simp_all [Spec.inUse]
    | illegal w => cases w <;> cases x <;> simp_all [Spec.inUse]

variable {s s' : JState}

/-- What does not touch the control part. -/
theorem jInv_ws (h : JInv s) (ws' : Nat → JWorker) (hs : ∀ w, (ws' w).sent = (ws' w).got ++ (ws' w).pending) (hst : ∀ w, (ws' w).static = (s.ws w).static)
    (hal : (∀ t, jTodo (s.pcs t) = none) → ∀ w, (s.ws w).static = true → (ws' w).alive = (s.ws w).alive)
    (hp : ∀ w, s.active ≠ some w → (s.ws w).pending = [] → (ws' w).pending = []) : JInv { s with ws := ws' } := by
  refine ⟨h.held, h.holder, h.rule, hs, ?_, ?_, h.over, h.outside⟩
  · intro ht i hi
    have hi' : (s.ws i).static = true := by rw [← hst]; exact hi
    show (ws' i).alive = true
    rw [hal ht i hi']; exact h.before ht i hi'
  · intro t r hr i hn hi
    have hi' : (s.ws i).static = true := by rw [← hst]; exact hi
    rcases h.inExit t r hr i hn hi' with a | ⟨a, b | b⟩
    · exact Or.inl a
    · exact Or.inr ⟨a, Or.inl (hp i a b)⟩
    · exact Or.inr ⟨a, Or.inr b⟩

theorem jInv_send (h : JInv s) (w : Nat) (m : JMsg) (hw : s.active = some w) : JInv (s.send w m) := by
  refine jInv_ws h _ ?_ ?_ ?_ ?_
  · intro i
    by_cases e : i = w
    · subst e; simp [h.sent i]
    · simp [Function.update_of_ne e, h.sent i]
  · intro i
    by_cases e : i = w
    · subst e; simp
    · simp [Function.update_of_ne e]
  · intro _ i _
    by_cases e : i = w
    · subst e; simp
    · simp [Function.update_of_ne e]
  · intro i hi hp
    have e : i ≠ w := by rintro rfl; exact hi hw
    simp [Function.update_of_ne e, hp]

theorem jInv_work (h : JInv s) (w : Nat) (e : s.work w = some s') : JInv s' := by
  unfold JState.work at e
  cases hp : (s.ws w).pending with
  | nil => rw [hp] at e; cases e
  | cons m r =>
    rw [hp] at e
    cases e
    refine jInv_ws h _ ?_ ?_ ?_ ?_
    · intro i
      by_cases e : i = w
      · subst e; simp [h.sent i, hp]
      · simp [Function.update_of_ne e, h.sent i]
    · intro i
      by_cases e : i = w
      · subst e; simp
      · simp [Function.update_of_ne e]
    · intro _ i _
      by_cases e : i = w
      · subst e; simp
      · simp [Function.update_of_ne e]
    · intro i _ hi
      have e : i ≠ w := by rintro rfl; rw [hp] at hi; cases hi
      simp [Function.update_of_ne e, hi]

/-- A worker that is not static is about to be destroyed. -/
theorem jInv_kill (h : JInv s) (w : Nat) (hw : (s.ws w).static = false) : JInv (s.kill w) := by
  refine jInv_ws h _ ?_ ?_ ?_ ?_
  · intro i
    by_cases e : i = w
    · subst e; simp [h.sent i]
    · simp [Function.update_of_ne e, h.sent i]
  · intro i
    by_cases e : i = w
    · subst e; simp
    · simp [Function.update_of_ne e]
  · intro _ i hi
    have e : i ≠ w := by rintro rfl; rw [hw] at hi; cases hi
    simp [Function.update_of_ne e]
  · intro i _ hp
    by_cases e : i = w
    · subst e; simp [hp]
    · simp [Function.update_of_ne e, hp]

/-- A thread that is not in `exit` goes to a place outside `exit`; mutex, pointer and history change. -/
theorem jInv_go (h : JInv s) (t : Nat) (p : JPc) (lk ac : Option Nat) (hi : List JEvent) (ho : s.over = none) (h0 : jTodo (s.pcs t) = none) (hp : jTodo p = none)
    (hl : (jHolds p = true ∧ (s.lock = none ∨ s.lock = some t) ∧ lk = some t) ∨ (jHolds p = false ∧ jHolds (s.pcs t) = false ∧ lk = s.lock) ∨ (jHolds p = false ∧ s.lock = some t ∧ lk = none))
    (ha : Spec.inUse hi none = some ac) (hac : ac = s.active ∨ s.lock = some t) :
    JInv (JState.go { s with lock := lk, active := ac, hist := hi } t p) := by
  have self : (JState.go { s with lock := lk, active := ac, hist := hi } t p).pcs t = p := by simp [JState.go]
  have other : ∀ u, u ≠ t → (JState.go { s with lock := lk, active := ac, hist := hi } t p).pcs u = s.pcs u := by
    intro u hu; simp [JState.go, Function.update_of_ne hu]
  have noexit : ∀ u r, s.lock = some t → jTodo (s.pcs u) = some r → False := by
    intro u r hlk hu
    have := h.held u (jTodo_holds hu)
    rw [hlk] at this
    injection this with this
    subst this
    rw [h0] at hu; cases hu
  refine ⟨?_, ?_, ha, h.sent, ?_, ?_, ?_, ?_⟩
  · intro u hu
    show lk = some u
    by_cases e : u = t
    · subst e
      rw [self] at hu
      rcases hl with ⟨_, _, b⟩ | ⟨a, _⟩ | ⟨a, _⟩
      · exact b
      · rw [a] at hu; cases hu
      · rw [a] at hu; cases hu
    · rw [other u e] at hu
      have hh := h.held u hu
      rcases hl with ⟨_, b | b, _⟩ | ⟨_, _, b⟩ | ⟨_, b, _⟩
      · rw [b] at hh; cases hh
      · rw [b] at hh; injection hh with hh; exact absurd hh.symm e
      · rw [b]; exact hh
      · rw [b] at hh; injection hh with hh; exact absurd hh.symm e
  · intro u (hu : lk = some u)
    by_cases e : u = t
    · subst e
      rw [self]
      rcases hl with ⟨a, _⟩ | ⟨_, a, b⟩ | ⟨_, _, b⟩
      · exact a
      · rw [b] at hu; have := h.holder u hu; rw [a] at this; cases this
      · rw [b] at hu; cases hu
    · rw [other u e]
      rcases hl with ⟨_, _, b⟩ | ⟨_, _, b⟩ | ⟨_, _, b⟩
      · rw [b] at hu; injection hu with hu; exact absurd hu.symm e
      · rw [b] at hu; exact h.holder u hu
      · rw [b] at hu; cases hu
  · intro hu i hi
    refine h.before (fun u => ?_) i hi
    by_cases e : u = t
    · rw [e]; exact h0
    · have := hu u; rw [other u e] at this; exact this
  · intro u r hu i hn hi
    have e : u ≠ t := by rintro rfl; rw [self, hp] at hu; cases hu
    rw [other u e] at hu ⊢
    rcases hac with hac | hac
    · show _ ∨ (ac ≠ some i ∧ _)
      rw [hac]; exact h.inExit u r hu i hn hi
    · exact (noexit u r hac hu).elim
  · intro hc; exact absurd ho hc
  · intro u w r hu
    by_cases e : u = t
    · subst e; rw [self] at hu; rw [hu] at hp; cases hp
    · rw [other u e] at hu; exact h.outside u w r hu

theorem inUse_off (l : List JEvent) (a : Option Nat) (h : Spec.inUse l none = some a) : Spec.inUse (l ++ [.off]) none = some none :=
  inUse_append l .off none a none h rfl

/-- A step of the thread in `exit`. -/
theorem jInv_exit (h : JInv s) (t : Nat) (p : JPc) (ws' : Nat → JWorker) (hi' : List JEvent) (ho : s.over = none) (hh : jHolds (s.pcs t) = true) (r : List Nat) (hp : jTodo p = some r) (hq : ∀ w r, p ≠ .dtor w .inside (some r))
    (ha : Spec.inUse hi' none = some s.active)
    (hs : ∀ w, (ws' w).sent = (ws' w).got ++ (ws' w).pending)
    (hx : ∀ i, i < s.n → (ws' i).static = true → i ∈ r ∨ (s.active ≠ some i ∧ ((ws' i).pending = [] ∨ p = .dtor i .drain (some r)))) :
    JInv (JState.go { s with ws := ws', hist := hi' } t p) := by
  have hlk := h.held t hh
  have self : (JState.go { s with ws := ws', hist := hi' } t p).pcs t = p := by simp [JState.go]
  have other : ∀ u, u ≠ t → (JState.go { s with ws := ws', hist := hi' } t p).pcs u = s.pcs u := by
    intro u hu; simp [JState.go, Function.update_of_ne hu]
  refine ⟨?_, ?_, ha, hs, ?_, ?_, ?_, ?_⟩
  · intro u hu
    show s.lock = some u
    by_cases e : u = t
    · subst e; exact hlk
    · rw [other u e] at hu; exact h.held u hu
  · intro u (hu : s.lock = some u)
    rw [hlk] at hu; injection hu with hu; subst hu
    rw [self]; exact jTodo_holds hp
  · intro hu; have := hu t; rw [self, hp] at this; cases this
  · intro u r' hu i hn hi
    by_cases e : u = t
    · subst e
      rw [self] at hu ⊢
      rw [hp] at hu; injection hu with hu; subst hu
      exact hx i hn hi
    · rw [other u e] at hu
      have := h.held u (jTodo_holds hu)
      rw [hlk] at this; injection this with this; exact absurd this.symm e
  · intro hc; exact absurd ho hc
  · intro u w r hu
    by_cases e : u = t
    · subst e; rw [self] at hu; exact hq w r hu
    · rw [other u e] at hu; exact h.outside u w r hu

theorem mem_statics (i : Nat) : i ∈ s.statics ↔ i < s.n ∧ (s.ws i).static = true ∧ (s.ws i).alive = true := by
  simp [JState.statics]

/-- Steps of threads. -/
theorem jInv_stepAt (h : JInv s) (ho : s.over = none) (t : Nat) (e : s.stepAt t (s.pcs t) = some s') : JInv s' := by
  cases hpc : s.pcs t with
  | idle => rw [hpc] at e; cases e
  | init w =>
    rw [hpc] at e
    simp only [JState.stepAt] at e
    cases hl : s.lock with
    | some u => rw [hl] at e; cases e
    | none =>
      rw [hl] at e; cases e
      exact jInv_go h t (.initIn w) (some t) s.active s.hist ho (by rw [hpc]; rfl) rfl (Or.inl ⟨rfl, Or.inl hl, rfl⟩) h.rule (Or.inl rfl)
  | initIn w =>
    have hlk : s.lock = some t := h.held t (by rw [hpc]; rfl)
    have illegal : ∀ w', s.pcs t = .initIn w' → (w' = none ∨ s.active ≠ none) → JInv (JState.go { s with hist := s.hist ++ [.illegal w'] } t (.exiting s.statics)) := by
      intro w' hw' hc
      have hall : ∀ u, jTodo (s.pcs u) = none := by
        intro u
        by_cases e : u = t
        · rw [e, hpc]; rfl
        · cases hu : jTodo (s.pcs u) with
          | none => rfl
          | some r =>
            have := h.held u (jTodo_holds hu)
            rw [hlk] at this; injection this with this; exact absurd this.symm e
      refine jInv_exit h t _ s.ws _ ho (by rw [hpc]; rfl) _ rfl (fun _ _ c => by cases c) ?_ h.sent ?_
      · refine inUse_append _ _ _ s.active _ h.rule ?_
        rcases hc with hc | hc
        · subst hc; rfl
        · cases ha : s.active with
          | none => exact absurd ha hc
          | some v => cases w' <;> rfl
      · intro i hn hi
        exact Or.inl ((mem_statics i).2 ⟨hn, hi, h.before hall i hi⟩)
    rw [hpc] at e
    cases w with
    | none =>
      have : s' = JState.go { s with hist := s.hist ++ [.illegal none] } t (.exiting s.statics) := by
        simp only [JState.stepAt] at e
        cases ha : s.active <;> rw [ha] at e <;> (cases e; rfl)
      rw [this]; exact illegal none hpc (Or.inl rfl)
    | some v =>
      cases ha : s.active with
      | some v' =>
        have : s' = JState.go { s with hist := s.hist ++ [.illegal (some v)] } t (.exiting s.statics) := by
          simp only [JState.stepAt] at e
          rw [ha] at e; cases e; rw [ha]
        rw [this]; exact illegal (some v) hpc (Or.inr (by rw [ha]; simp))
      | none =>
        simp only [JState.stepAt] at e
        rw [ha] at e; cases e
        refine jInv_go h t .idle none (some v) _ ho (by rw [hpc]; rfl) rfl (Or.inr (Or.inr ⟨rfl, hlk, rfl⟩)) ?_ (Or.inr hlk)
        exact inUse_append s.hist (.on v) none none (some v) (h.rule.trans (by rw [ha])) rfl
  | shut =>
    rw [hpc] at e
    simp only [JState.stepAt] at e
    cases hl : s.lock with
    | some u => rw [hl] at e; cases e
    | none =>
      rw [hl] at e; cases e
      exact jInv_go h t .shutIn (some t) s.active s.hist ho (by rw [hpc]; rfl) rfl (Or.inl ⟨rfl, Or.inl hl, rfl⟩) h.rule (Or.inl rfl)
  | shutIn =>
    have hlk : s.lock = some t := h.held t (by rw [hpc]; rfl)
    rw [hpc] at e
    simp only [JState.stepAt] at e
    cases e
    exact jInv_go h t .idle none none _ ho (by rw [hpc]; rfl) rfl (Or.inr (Or.inr ⟨rfl, hlk, rfl⟩)) (inUse_off _ _ h.rule) (Or.inr hlk)
  | exiting rest =>
    cases rest with
    | nil =>
      rw [hpc] at e
      simp only [JState.stepAt] at e
      cases e
      exact ⟨h.held, h.holder, h.rule, h.sent, h.before, h.inExit, fun _ => ⟨rfl, t, hpc⟩, h.outside⟩
    | cons w r =>
      have e1 : JState.go (s.kill w) t (.dtor w .test (some r)) = s' := by
        rw [hpc] at e; simp only [JState.stepAt] at e; cases e; rfl
      rw [← e1]
      refine jInv_exit h t _ _ s.hist ho (by rw [hpc]; rfl) (w :: r) rfl (fun _ _ c => by cases c) h.rule ?_ ?_
      · intro i
        by_cases e : i = w
        · subst e; simp [h.sent i]
        · simp [Function.update_of_ne e, h.sent i]
      · intro i hn hi
        have hi' : (s.ws i).static = true := by
          by_cases e : i = w
          · subst e; simpa using hi
          · simpa [Function.update_of_ne e] using hi
        rcases h.inExit t (w :: r) (by rw [hpc]; rfl) i hn hi' with a | ⟨a, b | b⟩
        · exact Or.inl a
        · refine Or.inr ⟨a, Or.inl ?_⟩
          by_cases e : i = w
          · subst e; simpa using b
          · simpa [Function.update_of_ne e] using b
        · rw [hpc] at b; cases b
  | dtor w ph k =>
    cases k with
    | none =>
      cases ph with
      | test =>
        rw [hpc] at e
        simp only [JState.stepAt] at e
        have toLock : JInv (s.go t (.dtor w .lock none)) :=
          jInv_go h t (.dtor w .lock none) s.lock s.active s.hist ho (by rw [hpc]; rfl) rfl (Or.inr (Or.inl ⟨rfl, by rw [hpc]; rfl, rfl⟩)) h.rule (Or.inl rfl)
        cases ha : s.active with
        | none => rw [ha] at e; cases e; exact toLock
        | some v =>
          rw [ha] at e
          by_cases hv : v = w
          · simp only [if_pos hv] at e; cases e; exact toLock
          · simp only [if_neg hv] at e; cases e
            exact jInv_go (jInv_send h v .warning ha) t (.dtor w .drain none) s.lock s.active s.hist ho (by show jTodo (s.pcs t) = none; rw [hpc]; rfl) rfl
              (Or.inr (Or.inl ⟨rfl, by show jHolds (s.pcs t) = false; rw [hpc]; rfl, rfl⟩)) h.rule (Or.inl rfl)
      | lock =>
        rw [hpc] at e
        simp only [JState.stepAt] at e
        cases hl : s.lock with
        | some u => rw [hl] at e; cases e
        | none =>
          rw [hl] at e; cases e
          exact jInv_go h t (.dtor w .inside none) (some t) s.active s.hist ho (by rw [hpc]; rfl) rfl (Or.inl ⟨rfl, Or.inl hl, rfl⟩) h.rule (Or.inl rfl)
      | inside =>
        have hlk : s.lock = some t := h.held t (by rw [hpc]; rfl)
        rw [hpc] at e
        simp only [JState.stepAt] at e
        cases e
        exact jInv_go h t (.dtor w .drain none) none none _ ho (by rw [hpc]; rfl) rfl (Or.inr (Or.inr ⟨rfl, hlk, rfl⟩)) (inUse_off _ _ h.rule) (Or.inr hlk)
      | drain =>
        rw [hpc] at e
        simp only [JState.stepAt] at e
        by_cases hp : (s.ws w).pending = []
        · simp only [if_pos hp] at e; cases e
          exact jInv_go h t .idle s.lock s.active s.hist ho (by rw [hpc]; rfl) rfl (Or.inr (Or.inl ⟨rfl, by rw [hpc]; rfl, rfl⟩)) h.rule (Or.inl rfl)
        · rw [if_neg hp] at e; cases e
    | some r =>
      have hh : jHolds (s.pcs t) = true := by rw [hpc]; cases ph <;> rfl
      have hlk : s.lock = some t := h.held t hh
      cases ph with
      | test =>
        rw [hpc] at e
        simp only [JState.stepAt] at e
        have old := h.inExit t (w :: r) (by rw [hpc]; rfl)
        have toLock : JInv (s.go t (.dtor w .lock (some r))) := by
          refine jInv_exit h t (.dtor w .lock (some r)) s.ws s.hist ho hh (w :: r) rfl (fun _ _ c => by cases c) h.rule h.sent ?_
          intro i hn hi
          rcases old i hn hi with a | ⟨a, b | b⟩
          · exact Or.inl a
          · exact Or.inr ⟨a, Or.inl b⟩
          · rw [hpc] at b; cases b
        cases ha : s.active with
        | none => rw [ha] at e; cases e; exact toLock
        | some v =>
          rw [ha] at e
          by_cases hv : v = w
          · simp only [if_pos hv] at e; cases e; exact toLock
          · simp only [if_neg hv] at e; cases e
            have hsend := jInv_send h v .warning ha
            refine jInv_exit hsend t (.dtor w .drain (some r)) (s.send v .warning).ws s.hist ho hh r rfl (fun _ _ c => by cases c) h.rule hsend.sent ?_
            intro i hn hi
            rcases hsend.inExit t (w :: r) (by show jTodo (s.pcs t) = _; rw [hpc]; rfl) i hn hi with a | ⟨a, b | b⟩
            · rcases List.mem_cons.1 a with c | c
              · subst c
                exact Or.inr ⟨by show s.active ≠ some i; rw [ha]; intro c; injection c with c; exact hv c, Or.inr rfl⟩
              · exact Or.inl c
            · exact Or.inr ⟨a, Or.inl b⟩
            · rw [show (s.send v .warning).pcs t = s.pcs t from rfl, hpc] at b; cases b
      | lock => rw [hpc] at e; simp only [JState.stepAt] at e; rw [hlk] at e; cases e
      | inside =>
        exact absurd hpc (h.outside t w r)
      | drain =>
        rw [hpc] at e
        simp only [JState.stepAt] at e
        by_cases hp : (s.ws w).pending = []
        · simp only [if_pos hp] at e; cases e
          refine jInv_exit h t (.exiting r) s.ws s.hist ho hh r rfl (fun _ _ c => by cases c) h.rule h.sent ?_
          intro i hn hi
          rcases h.inExit t r (by rw [hpc]; rfl) i hn hi with a | ⟨a, b | b⟩
          · exact Or.inl a
          · exact Or.inr ⟨a, Or.inl b⟩
          · rw [hpc] at b; cases b
            exact Or.inr ⟨a, Or.inl hp⟩
        · rw [if_neg hp] at e; cases e

/-- Calls. -/
theorem jInv_call (h : JInv s) (ho : s.over = none) (t : Nat) (o : JOp) (hi : s.pcs t = .idle) (e : s.call t o = some s') : JInv s' := by
  have go : ∀ (s : JState) (p : JPc), JInv s → s.over = none → s.pcs t = .idle → jTodo p = none → jHolds p = false → JInv (s.go t p) := by
    intro s p h ho hi h1 h2
    exact jInv_go h t p s.lock s.active s.hist ho (by rw [hi]; rfl) h1 (Or.inr (Or.inl ⟨h2, by rw [hi]; rfl, rfl⟩)) h.rule (Or.inl rfl)
  cases o with
  | init w =>
    cases w with
    | none => cases e; exact go s _ h ho hi rfl rfl
    | some w =>
      simp only [JState.call] at e
      split at e
      · split at e
        · cases e; exact go s _ h ho hi rfl rfl
        · cases e
      · cases e
  | shutDown => cases e; exact go s _ h ho hi rfl rfl
  | log m =>
    simp only [JState.call] at e
    cases ha : s.active with
    | none => rw [ha] at e; cases e; exact h
    | some w => rw [ha] at e; cases e; exact jInv_send h w _ ha
  | destroy w =>
    simp only [JState.call] at e
    split at e
    · split at e
      · split at e
        · cases e
        · next hs => cases e; exact go (s.kill w) _ (jInv_kill h w (by simpa using hs)) ho hi rfl rfl
      · cases e
    · cases e

theorem jInv_step (h : JInv s) (l : JLabel) (e : s.step l = some s') : JInv s' := by
  unfold JState.step at e
  split at e
  · next ho =>
    cases l with
    | call t o =>
      simp only at e
      split at e
      · next hi => exact jInv_call h ho t o hi e
      · cases e
    | step t => exact jInv_stepAt h ho t e
    | work w => exact jInv_work h w e
  · cases e

theorem jInv_run : ∀ (ls : List JLabel) {s : JState}, JInv s → s.run ls = some s' → JInv s'
  | [], _, h, e => by cases e; exact h
  | l :: ls, s, h, e => by
    unfold JState.run at e
    cases hl : s.step l with
    | none => rw [hl] at e; cases e
    | some s1 => rw [hl] at e; exact jInv_run ls (jInv_step h l hl) e

theorem jInv_reach (h : Spec.JReach s) : JInv s := by
  obtain ⟨n, st, ls, e⟩ := h
  exact jInv_run ls (jInv_start n st) e

/-- What everybody else can do while a thread is in `exit`. -/
structure JOther (s s' : JState) (t : Nat) : Prop where
  pc : s'.pcs t = s.pcs t
  active : s'.active = s.active
  over : s'.over = s.over
  n : s'.n = s.n
  static : ∀ i, (s'.ws i).static = (s.ws i).static
  alive : ∀ i, (s.ws i).static = true → (s'.ws i).alive = (s.ws i).alive
  pending : ∀ i, s.active ≠ some i → (s'.ws i).pending.length ≤ (s.ws i).pending.length

theorem jOther_ws (s : JState) (t : Nat) (ws' : Nat → JWorker) (hst : ∀ w, (ws' w).static = (s.ws w).static)
    (hal : ∀ w, (s.ws w).static = true → (ws' w).alive = (s.ws w).alive)
    (hp : ∀ i, s.active ≠ some i → (ws' i).pending.length ≤ (s.ws i).pending.length) : JOther s { s with ws := ws' } t :=
  ⟨rfl, rfl, rfl, rfl, hst, hal, hp⟩

theorem jOther_go {s s' : JState} {t : Nat} (h : JOther s s' t) (u : Nat) (hu : t ≠ u) (p : JPc) (lk : Option Nat) : JOther s (JState.go { s' with lock := lk } u p) t :=
  ⟨by rw [← h.pc]; simp [JState.go, Function.update_of_ne hu], h.active, h.over, h.n, h.static, h.alive, h.pending⟩

theorem jOther_refl (s : JState) (t : Nat) : JOther s s t := ⟨rfl, rfl, rfl, rfl, fun _ => rfl, fun _ _ => rfl, fun _ _ => Nat.le_refl _⟩

theorem jOther_send (s : JState) (t w : Nat) (m : JMsg) (hw : s.active = some w) : JOther s (s.send w m) t := by
  refine jOther_ws s t _ ?_ ?_ ?_
  · intro i
    by_cases e : i = w
    · subst e; simp
    · simp [Function.update_of_ne e]
  · intro i _
    by_cases e : i = w
    · subst e; simp
    · simp [Function.update_of_ne e]
  · intro i hi
    have e : i ≠ w := by rintro rfl; exact hi hw
    simp [Function.update_of_ne e]

theorem jOther_kill (s : JState) (t w : Nat) (hw : (s.ws w).static = false) : JOther s (s.kill w) t := by
  refine jOther_ws s t _ ?_ ?_ ?_
  · intro i
    by_cases e : i = w
    · subst e; simp
    · simp [Function.update_of_ne e]
  · intro i hi
    have e : i ≠ w := by rintro rfl; rw [hw] at hi; cases hi
    simp [Function.update_of_ne e]
  · intro i hi
    by_cases e : i = w
    · subst e; simp
    · simp [Function.update_of_ne e]

theorem jOther (h : JInv s) {t : Nat} (ht : jHolds (s.pcs t) = true) (l : JLabel) (hl : l ≠ .step t) (e : s.step l = some s') : JOther s s' t := by
  have hlk := h.held t ht
  unfold JState.step at e
  split at e
  · next ho =>
    cases l with
    | work w =>
      simp only [JState.work] at e
      cases hp : (s.ws w).pending with
      | nil => rw [hp] at e; cases e
      | cons m q =>
        rw [hp] at e
        cases e
        refine jOther_ws s t _ ?_ ?_ ?_
        · intro i
          by_cases e : i = w
          · subst e; simp
          · simp [Function.update_of_ne e]
        · intro i _
          by_cases e : i = w
          · subst e; simp
          · simp [Function.update_of_ne e]
        · intro i hi
          by_cases e : i = w
          · subst e; simp [hp]
          · simp [Function.update_of_ne e]
    | call u o =>
      simp only at e
      split at e
      · next hi =>
        have hu : t ≠ u := by rintro rfl; rw [hi] at ht; cases ht
        cases o with
        | init w =>
          cases w with
          | none => cases e; exact jOther_go (jOther_refl s t) u hu _ s.lock
          | some w =>
            simp only [JState.call] at e
            split at e
            · split at e
              · cases e; exact jOther_go (jOther_refl s t) u hu _ s.lock
              · cases e
            · cases e
        | shutDown => cases e; exact jOther_go (jOther_refl s t) u hu _ s.lock
        | log m =>
          simp only [JState.call] at e
          cases ha : s.active with
          | none => rw [ha] at e; cases e; exact jOther_refl s t
          | some w => rw [ha] at e; cases e; exact jOther_send s t w _ ha
        | destroy w =>
          simp only [JState.call] at e
          split at e
          · split at e
            · split at e
              · cases e
              · next hns => cases e; exact jOther_go (jOther_kill s t w (by simpa using hns)) u hu _ s.lock
            · cases e
          · cases e
      · cases e
    | step u =>
      have hu : t ≠ u := by rintro rfl; exact hl rfl
      have hf : jHolds (s.pcs u) = false := by
        cases hh : jHolds (s.pcs u) with
        | false => rfl
        | true =>
          have := h.held u hh
          rw [hlk] at this; injection this with this; exact absurd this hu
      simp only at e
      cases hpc : s.pcs u with
      | idle => rw [hpc] at e; cases e
      | init w => rw [hpc] at e; simp only [JState.stepAt] at e; rw [hlk] at e; cases e
      | shut => rw [hpc] at e; simp only [JState.stepAt] at e; rw [hlk] at e; cases e
      | initIn w => rw [hpc] at hf; cases hf
      | shutIn => rw [hpc] at hf; cases hf
      | exiting q => rw [hpc] at hf; cases hf
      | dtor w ph k =>
        cases k with
        | some q => rw [hpc] at hf; cases ph <;> cases hf
        | none =>
          rw [hpc] at e
          cases ph with
          | inside => rw [hpc] at hf; cases hf
          | lock => simp only [JState.stepAt] at e; rw [hlk] at e; cases e
          | test =>
            simp only [JState.stepAt] at e
            cases ha : s.active with
            | none => rw [ha] at e; cases e; exact jOther_go (jOther_refl s t) u hu _ s.lock
            | some v =>
              rw [ha] at e
              by_cases hv : v = w
              · simp only [if_pos hv] at e; cases e; exact jOther_go (jOther_refl s t) u hu _ s.lock
              · simp only [if_neg hv] at e; cases e
                exact jOther_go (jOther_send s t v .warning ha) u hu _ s.lock
          | drain =>
            simp only [JState.stepAt] at e
            split at e
            · cases e; exact jOther_go (jOther_refl s t) u hu _ s.lock
            · cases e
  · cases e

/-! ### Blocked -/

/-- The thread in `exit` cannot end. -/
def JBlocked (s : JState) (t : Nat) : Prop :=
  s.over = none ∧ ((∃ w r, s.pcs t = .dtor w .lock (some r)) ∨ ∃ r, jTodo (s.pcs t) = some r ∧ ∃ i ∈ r, ∀ v, s.active = some v → v = i)

theorem jBlocked_todo {t : Nat} (h : JBlocked s t) : ∃ r, jTodo (s.pcs t) = some r := by
  rcases h.2 with ⟨w, r, e⟩ | ⟨r, e, _⟩
  · exact ⟨w :: r, by rw [e]; rfl⟩
  · exact ⟨r, e⟩

theorem jBlocked_step (h : JInv s) {t : Nat} (hb : JBlocked s t) (l : JLabel) (e : s.step l = some s') : JBlocked s' t := by
  obtain ⟨r0, hr0⟩ := jBlocked_todo hb
  by_cases hl : l = .step t
  · subst hl
    unfold JState.step at e
    rw [if_pos hb.1] at e
    simp only at e
    have hlk := h.held t (jTodo_holds hr0)
    have lockCase : ∀ w r, JBlocked (s.go t (.dtor w .lock (some r))) t := fun w r => ⟨hb.1, Or.inl ⟨w, r, by simp [JState.go]⟩⟩
    cases hpc : s.pcs t with
    | exiting rest =>
      rw [hpc] at e
      rcases hb.2 with ⟨w, r, c⟩ | ⟨r, c, i, hi, ha⟩
      · rw [hpc] at c; cases c
      · rw [hpc] at c; cases c
        cases rest with
        | nil => cases hi
        | cons w r => cases e; exact ⟨hb.1, Or.inr ⟨w :: r, by simp [JState.go, jTodo], i, hi, ha⟩⟩
    | dtor w ph k =>
      rw [hpc] at e
      cases k with
      | none => rw [hpc] at hr0; cases ph <;> cases hr0
      | some r =>
        cases ph with
        | lock => simp only [JState.stepAt] at e; rw [hlk] at e; cases e
        | inside => exact absurd hpc (h.outside t w r)
        | test =>
          rcases hb.2 with ⟨w, r, c⟩ | ⟨r', c, i, hi, ha⟩
          · rw [hpc] at c; cases c
          · rw [hpc] at c; cases c
            simp only [JState.stepAt] at e
            cases hac : s.active with
            | none => rw [hac] at e; cases e; exact lockCase w r
            | some v =>
              rw [hac] at e
              by_cases hv : v = w
              · simp only [if_pos hv] at e; cases e; exact lockCase w r
              · simp only [if_neg hv] at e; cases e
                refine ⟨hb.1, Or.inr ⟨r, by simp [JState.go, jTodo], i, ?_, ha⟩⟩
                rcases List.mem_cons.1 hi with c | c
                · exact absurd ((ha v hac).trans c) hv
                · exact c
        | drain =>
          rcases hb.2 with ⟨w, r, c⟩ | ⟨r', c, i, hi, ha⟩
          · rw [hpc] at c; cases c
          · rw [hpc] at c; cases c
            simp only [JState.stepAt] at e
            split at e
            · cases e; exact ⟨hb.1, Or.inr ⟨r, by simp [JState.go, jTodo], i, hi, ha⟩⟩
            · cases e
    | _ => rw [hpc] at hr0; cases hr0
  · have o := jOther h (jTodo_holds hr0) l hl e
    refine ⟨o.over.trans hb.1, ?_⟩
    rw [o.pc, o.active]; exact hb.2

theorem jBlocked_run : ∀ (ls : List JLabel) {s : JState} {t : Nat}, JInv s → JBlocked s t → s.run ls = some s' → JBlocked s' t
  | [], _, _, _, hb, e => by cases e; exact hb
  | l :: ls, s, t, h, hb, e => by
    unfold JState.run at e
    cases hl : s.step l with
    | none => rw [hl] at e; cases e
    | some s1 => rw [hl] at e; exact jBlocked_run ls (jInv_step h l hl) (jBlocked_step h hb l hl) e

/-! ### Not blocked -/

/-- Steps needed to destroy these workers. -/
def jCost (ws : Nat → JWorker) : List Nat → Nat
  | [] => 1
  | w :: r => 3 + (ws w).pending.length + jCost ws r

/-- Steps needed until the end, from here. -/
def jLeftAt (ws : Nat → JWorker) : JPc → Nat
  | .exiting r => jCost ws r
  | .dtor w .drain (some r) => 1 + (ws w).pending.length + jCost ws r
  | .dtor w _ (some r) => 2 + (ws w).pending.length + jCost ws r
  | _ => 0

/-- Steps needed until the end. -/
def jLeft (s : JState) (t : Nat) : Nat := if s.over = none then jLeftAt s.ws (s.pcs t) else 0

theorem jLeft_eq (s : JState) (t : Nat) (p : JPc) (ho : s.over = none) (hp : s.pcs t = p) : jLeft s t = jLeftAt s.ws p := by
  unfold jLeft; rw [if_pos ho, hp]

/-- The thread in `exit` can end. -/
def JFree (s : JState) (t : Nat) : Prop :=
  s.over = none ∧ ∃ l, (∀ i ∈ l, ∃ v, s.active = some v ∧ v ≠ i) ∧
    ((s.pcs t = .exiting l) ∨ (∃ w r, l = w :: r ∧ (s.pcs t = .dtor w .test (some r) ∨ s.pcs t = .dtor w .drain (some r))))

theorem jFree_todo {t : Nat} (h : JFree s t) : ∃ r, jTodo (s.pcs t) = some r := by
  obtain ⟨_, l, _, e | ⟨w, r, _, e | e⟩⟩ := h <;> rw [e] <;> exact ⟨_, rfl⟩

theorem jCost_le (ws ws' : Nat → JWorker) : ∀ (l : List Nat), (∀ i ∈ l, (ws' i).pending.length ≤ (ws i).pending.length) → jCost ws' l ≤ jCost ws l
  | [], _ => Nat.le_refl _
  | w :: r, h => by
    have h1 := h w (List.mem_cons_self ..)
    have h2 := jCost_le ws ws' r fun i hi => h i (List.mem_cons_of_mem _ hi)
    simp only [jCost]; omega

theorem jCost_pos (ws : Nat → JWorker) (l : List Nat) : 0 < jCost ws l := by
  cases l <;> simp only [jCost] <;> omega

/-- Others do not delay the end. -/
theorem jFree_other (h : JInv s) {t : Nat} (hf : JFree s t) (l : JLabel) (hl : l ≠ .step t) (e : s.step l = some s') : JFree s' t ∧ jLeft s' t ≤ jLeft s t := by
  obtain ⟨r0, hr0⟩ := jFree_todo hf
  have o := jOther h (jTodo_holds hr0) l hl e
  obtain ⟨ho, q, hq, hc⟩ := hf
  have hle : ∀ i ∈ q, (s'.ws i).pending.length ≤ (s.ws i).pending.length := fun i hi => o.pending i (by
    obtain ⟨v, hv, hn⟩ := hq i hi
    rw [hv]; intro c; injection c with c; exact hn c)
  refine ⟨⟨o.over.trans ho, q, by rw [o.active]; exact hq, by rw [o.pc]; exact hc⟩, ?_⟩
  unfold jLeft
  rw [if_pos ho, if_pos (o.over.trans ho), o.pc]
  rcases hc with c | ⟨w, r, c1, c | c⟩
  · rw [c]; exact jCost_le _ _ _ hle
  · rw [c]
    have h1 := hle w (by rw [c1]; exact List.mem_cons_self ..)
    have h2 := jCost_le s.ws s'.ws r fun i hi => hle i (by rw [c1]; exact List.mem_cons_of_mem _ hi)
    simp only [jLeftAt]; omega
  · rw [c]
    have h1 := hle w (by rw [c1]; exact List.mem_cons_self ..)
    have h2 := jCost_le s.ws s'.ws r fun i hi => hle i (by rw [c1]; exact List.mem_cons_of_mem _ hi)
    simp only [jLeftAt]; omega

theorem jCost_kill (s : JState) (w : Nat) (l : List Nat) : jCost (s.kill w).ws l = jCost s.ws l := by
  have : ∀ i, ((s.kill w).ws i).pending = (s.ws i).pending := by
    intro i
    by_cases e : i = w
    · subst e; simp [JState.kill]
    · simp [JState.kill, Function.update_of_ne e]
  induction l with
  | nil => rfl
  | cons a l ih => simp only [jCost, ih, this]

theorem jCost_send (s : JState) (v : Nat) (m : JMsg) (l : List Nat) (h : v ∉ l) : jCost (s.send v m).ws l = jCost s.ws l := by
  induction l with
  | nil => rfl
  | cons a l ih =>
    have ha : a ≠ v := fun c => h (c ▸ List.mem_cons_self ..)
    simp only [jCost, ih fun c => h (List.mem_cons_of_mem _ c)]
    simp [JState.send, Function.update_of_ne ha]

/-- The thread itself goes on, or waits for the thread of a worker, which goes on; either brings the end nearer. -/
theorem jFree_step {t : Nat} (hf : JFree s t) : ∃ l, (l = .step t ∨ (∃ w, l = .work w) ∧ s.step (.step t) = none) ∧
    ∃ s', s.step l = some s' ∧ jLeft s' t < jLeft s t ∧ (JFree s' t ∨ s'.over = some 1) := by
  obtain ⟨ho, q, hq, hc⟩ := hf
  have left := fun p (hp : s.pcs t = p) => jLeft_eq s t p ho hp
  rcases hc with c | ⟨w, r, c1, c | c⟩
  · cases q with
    | nil =>
      refine ⟨.step t, Or.inl rfl, { s with over := some 1 }, by unfold JState.step; rw [if_pos ho]; simp only; rw [c]; rfl, ?_, Or.inr rfl⟩
      rw [left _ c]; simp [jLeft, jLeftAt, jCost]
    | cons w r =>
      refine ⟨.step t, Or.inl rfl, (s.kill w).go t (.dtor w .test (some r)), by unfold JState.step; rw [if_pos ho]; simp only; rw [c]; rfl, ?_,
        Or.inl ⟨ho, w :: r, hq, Or.inr ⟨w, r, rfl, Or.inl (by simp [JState.go])⟩⟩⟩
      rw [left _ c]
      have e1 : jLeft ((s.kill w).go t (.dtor w .test (some r))) t = 2 + ((s.kill w).ws w).pending.length + jCost (s.kill w).ws r := by
        exact jLeft_eq ((s.kill w).go t (.dtor w .test (some r))) t (.dtor w .test (some r)) ho (by simp [JState.go])
      rw [e1, jCost_kill]
      simp [JState.kill, jCost, jLeftAt]
  · obtain ⟨v, hv, hn⟩ := hq w (by rw [c1]; exact List.mem_cons_self ..)
    have hnr : v ∉ r := by
      intro hm
      obtain ⟨v', hv', hn'⟩ := hq v (by rw [c1]; exact List.mem_cons_of_mem _ hm)
      rw [hv] at hv'; injection hv' with hv'; exact hn' hv'.symm
    refine ⟨.step t, Or.inl rfl, (s.send v .warning).go t (.dtor w .drain (some r)), ?_, ?_,
      Or.inl ⟨ho, q, hq, Or.inr ⟨w, r, c1, Or.inr (by simp [JState.go])⟩⟩⟩
    · unfold JState.step; rw [if_pos ho]; simp only; rw [c]; simp only [JState.stepAt]; rw [hv]; simp only [if_neg hn]
    · rw [left _ c]
      have e1 : jLeft ((s.send v .warning).go t (.dtor w .drain (some r))) t = 1 + ((s.send v .warning).ws w).pending.length + jCost (s.send v .warning).ws r := by
        exact jLeft_eq ((s.send v .warning).go t (.dtor w .drain (some r))) t (.dtor w .drain (some r)) ho (by simp [JState.go])
      rw [e1, jCost_send _ _ _ _ hnr]
      simp [JState.send, Function.update_of_ne (Ne.symm hn), jLeftAt]
  · cases hp : (s.ws w).pending with
    | nil =>
      refine ⟨.step t, Or.inl rfl, s.go t (.exiting r), ?_, ?_, Or.inl ⟨ho, r, fun i hi => hq i (by rw [c1]; exact List.mem_cons_of_mem _ hi), Or.inl (by simp [JState.go])⟩⟩
      · unfold JState.step; rw [if_pos ho]; simp only; rw [c]; simp only [JState.stepAt]; rw [if_pos hp]
      · rw [left _ c]
        have e1 : jLeft (s.go t (.exiting r)) t = jCost s.ws r := by
          exact jLeft_eq (s.go t (.exiting r)) t (.exiting r) ho (by simp [JState.go])
        rw [e1]; simp only [jLeftAt]; omega
    | cons m p =>
      generalize hs2 : ({ s with ws := Function.update s.ws w { s.ws w with pending := p, got := (s.ws w).got ++ [m] } } : JState) = s2
      have hs : s.step (.work w) = some s2 := by
        unfold JState.step; rw [if_pos ho]; simp only [JState.work]; rw [hp, ← hs2]
      have hw : ∀ i, (s2.ws i).pending = if i = w then p else (s.ws i).pending := by
        intro i
        rw [← hs2]
        by_cases e : i = w
        · subst e; simp
        · simp [Function.update_of_ne e, e]
      have ho2 : s2.over = none := by rw [← hs2]; exact ho
      have hp2 : s2.pcs t = .dtor w .drain (some r) := by rw [← hs2]; exact c
      have hn : s.step (.step t) = none := by
        unfold JState.step; rw [if_pos ho]; simp only; rw [c]; simp only [JState.stepAt]; rw [if_neg (by rw [hp]; simp)]
      refine ⟨.work w, Or.inr ⟨⟨w, rfl⟩, hn⟩, s2, hs, ?_, Or.inl ⟨ho2, q, by rw [← hs2]; exact hq, Or.inr ⟨w, r, c1, Or.inr hp2⟩⟩⟩
      rw [left _ c, jLeft_eq s2 t _ ho2 hp2]
      have h2 := jCost_le s.ws s2.ws r (by
        intro i _
        rw [hw]
        by_cases e : i = w
        · subst e; simp [hp]
        · simp [e])
      simp only [jLeftAt, hp, List.length_cons, hw, if_true]; omega

/-- ... so it can end. -/
theorem jFree_ends : ∀ (k : Nat) {s : JState} {t : Nat}, jLeft s t ≤ k → JFree s t → ∃ ls s', s.run ls = some s' ∧ s'.over = some 1
  | 0, s, t, hk, hf => by
    obtain ⟨l, _, s', _, hlt, _⟩ := jFree_step hf
    omega
  | k + 1, s, t, hk, hf => by
    obtain ⟨l, _, s', e, hlt, hf' | ho⟩ := jFree_step hf
    · obtain ⟨ls, s2, e2, o2⟩ := jFree_ends k (by omega) hf'
      exact ⟨l :: ls, s2, by unfold JState.run; rw [e]; exact e2, o2⟩
    · exact ⟨[l], s', by unfold JState.run; rw [e]; rfl, ho⟩

/-! ### Before the test -/

theorem jIllegal_other (h : JInv s) {t : Nat} {w : Option Nat} (hi : Spec.IllegalAt s t w) (l : JLabel) (hl : l ≠ .step t) (e : s.step l = some s') :
    Spec.IllegalAt s' t w ∧ JOther s s' t := by
  have o := jOther h (t := t) (by rw [hi.2.1]; rfl) l hl e
  exact ⟨⟨o.over.trans hi.1, o.pc.trans hi.2.1, by rw [o.active]; exact hi.2.2⟩, o⟩

theorem free_other {t : Nat} (o : JOther s s' t) : Spec.Free s' ↔ Spec.Free s := by
  unfold Spec.Free
  constructor
  · intro h i hn hs ha
    have := h i (by rw [o.n]; exact hn) (by rw [o.static]; exact hs) (by rw [o.alive i hs]; exact ha)
    rw [o.active] at this; exact this
  · intro h i hn hs ha
    rw [o.n] at hn; rw [o.static] at hs; rw [o.alive i hs] at ha
    rw [o.active]; exact h i hn hs ha

theorem jIllegal_step {t : Nat} {w : Option Nat} (hi : Spec.IllegalAt s t w) :
    s.step (.step t) = some (JState.go { s with hist := s.hist ++ [.illegal w] } t (.exiting s.statics)) := by
  unfold JState.step
  rw [if_pos hi.1]
  simp only
  rw [hi.2.1]
  simp only [JState.stepAt]
  cases ha : s.active with
  | none =>
    rcases hi.2.2 with c | c
    · subst c; rfl
    · exact absurd ha c
  | some v => cases w <;> rfl

theorem jIllegal_free {t : Nat} {w : Option Nat} (hi : Spec.IllegalAt s t w) (hf : Spec.Free s) :
    JFree (JState.go { s with hist := s.hist ++ [.illegal w] } t (.exiting s.statics)) t :=
  ⟨hi.1, s.statics, fun i hm => by
    obtain ⟨a, b, c⟩ := (mem_statics i).1 hm
    exact hf i a b c, Or.inl (by simp [JState.go])⟩

theorem jIllegal_blocked {t : Nat} {w : Option Nat} (hi : Spec.IllegalAt s t w) (hf : ¬ Spec.Free s) :
    JBlocked (JState.go { s with hist := s.hist ++ [.illegal w] } t (.exiting s.statics)) t := by
  unfold Spec.Free at hf
  refine ⟨hi.1, Or.inr ⟨s.statics, by simp [JState.go, jTodo], ?_⟩⟩
  refine Classical.byContradiction fun hc => hf fun i hn hs ha => ?_
  refine Classical.byContradiction fun hd => hc ⟨i, (mem_statics i).2 ⟨hn, hs, ha⟩, fun v hv => ?_⟩
  exact Classical.byContradiction fun hne => hd ⟨v, hv, hne⟩

/-- The process cannot end. -/
def JDoomed (s : JState) (t : Nat) : Prop := JBlocked s t ∨ ∃ w, Spec.IllegalAt s t w ∧ ¬ Spec.Free s

theorem jDoomed_step (h : JInv s) {t : Nat} (hd : JDoomed s t) (l : JLabel) (e : s.step l = some s') : JDoomed s' t := by
  rcases hd with hb | ⟨w, hi, hf⟩
  · exact Or.inl (jBlocked_step h hb l e)
  · by_cases hl : l = .step t
    · subst hl
      rw [jIllegal_step hi] at e; cases e
      exact Or.inl (jIllegal_blocked hi hf)
    · obtain ⟨a, o⟩ := jIllegal_other h hi l hl e
      exact Or.inr ⟨w, a, fun c => hf ((free_other o).1 c)⟩

theorem jDoomed_run : ∀ (ls : List JLabel) {s : JState} {t : Nat}, JInv s → JDoomed s t → s.run ls = some s' → JDoomed s' t
  | [], _, _, _, hb, e => by cases e; exact hb
  | l :: ls, s, t, h, hb, e => by
    unfold JState.run at e
    cases hl : s.step l with
    | none => rw [hl] at e; cases e
    | some s1 => rw [hl] at e; exact jDoomed_run ls (jInv_step h l hl) (jDoomed_step h hb l hl) e

theorem jDoomed_holds {t : Nat} (hd : JDoomed s t) : s.over = none ∧ jHolds (s.pcs t) = true := by
  rcases hd with hb | ⟨w, hi, _⟩
  · obtain ⟨r, hr⟩ := jBlocked_todo hb
    exact ⟨hb.1, jTodo_holds hr⟩
  · exact ⟨hi.1, by rw [hi.2.1]; rfl⟩

/-- The process can end. -/
def JGood (s : JState) (t : Nat) : Prop := JFree s t ∨ ∃ w, Spec.IllegalAt s t w ∧ Spec.Free s

/-- Steps needed until the end. -/
def jTotal (t : Nat) (s : JState) : Nat :=
  match s.pcs t with
  | .initIn _ => 1 + jCost s.ws s.statics
  | _ => jLeft s t

theorem statics_other {t : Nat} (o : JOther s s' t) : s'.statics = s.statics := by
  unfold JState.statics
  rw [o.n]
  congr 1
  refine List.filter_congr fun w _ => ?_
  rw [o.static]
  cases hs : (s.ws w).static
  · rfl
  · rw [o.alive w hs]

theorem jTotal_free {t : Nat} (hf : JFree s t) : jTotal t s = jLeft s t := by
  unfold jTotal
  obtain ⟨_, l, _, e | ⟨w, r, _, e | e⟩⟩ := hf <;> rw [e]

theorem jTotal_illegal {t : Nat} {w : Option Nat} (hi : Spec.IllegalAt s t w) : jTotal t s = 1 + jCost s.ws s.statics := by
  unfold jTotal; rw [hi.2.1]

theorem jGood_after {t : Nat} {w : Option Nat} (hi : Spec.IllegalAt s t w) (hf : Spec.Free s) :
    jTotal t (JState.go { s with hist := s.hist ++ [.illegal w] } t (.exiting s.statics)) < jTotal t s := by
  rw [jTotal_illegal hi, jTotal_free (jIllegal_free hi hf), jLeft_eq (JState.go { s with hist := s.hist ++ [.illegal w] } t (.exiting s.statics)) t (.exiting s.statics) hi.1
    (by simp [JState.go])]
  show jCost s.ws s.statics < _
  omega

/-- Nobody delays the end. -/
theorem jGood_any (h : JInv s) {t : Nat} (hg : JGood s t) (l : JLabel) (e : s.step l = some s') : (JGood s' t ∨ s'.over = some 1) ∧ jTotal t s' ≤ jTotal t s := by
  rcases hg with hf | ⟨w, hi, hf⟩
  · by_cases hl : l = .step t
    · subst hl
      obtain ⟨l', hl', s2, e2, hlt, hg⟩ := jFree_step hf
      have key : l' = .step t → s2 = s' := by rintro rfl; rw [e] at e2; cases e2; rfl
      rcases hl' with c | ⟨_, c⟩
      · have := key c; subst this
        rcases hg with hg | hg
        · exact ⟨Or.inl (Or.inl hg), by rw [jTotal_free hg, jTotal_free hf]; omega⟩
        · refine ⟨Or.inr hg, ?_⟩
          rw [jTotal_free hf]
          have hx : s2.pcs t = s.pcs t := by
            obtain ⟨ho, q, hq, hc⟩ := hf
            unfold JState.step at e
            rw [if_pos ho] at e
            simp only at e
            rcases hc with c | ⟨w, r, c1, c | c⟩
            · rw [c] at e
              cases q with
              | nil => cases e; rfl
              | cons w r => cases e; rw [show ((s.kill w).go t _).over = s.over from rfl, ho] at hg; cases hg
            · rw [c] at e; simp only [JState.stepAt] at e
              split at e
              · cases e; rw [show (s.go t _).over = s.over from rfl, ho] at hg; cases hg
              · split at e
                · cases e; rw [show (s.go t _).over = s.over from rfl, ho] at hg; cases hg
                · cases e; rw [show (JState.go (s.send _ _) t _).over = s.over from rfl, ho] at hg; cases hg
            · rw [c] at e; simp only [JState.stepAt] at e
              split at e
              · cases e; rw [show (s.go t _).over = s.over from rfl, ho] at hg; cases hg
              · cases e
          have : jTotal t s2 = jLeft s2 t := by
            unfold jTotal
            rw [hx]
            obtain ⟨_, l, _, e | ⟨w, r, _, e | e⟩⟩ := hf <;> rw [e]
          rw [this]; unfold jLeft; rw [if_neg (by rw [hg]; simp)]; omega
      · -- it waits for the worker, so it cannot step
        rw [c] at e; cases e
    · obtain ⟨a, b⟩ := jFree_other h hf l hl e
      exact ⟨Or.inl (Or.inl a), by rw [jTotal_free a, jTotal_free hf]; exact b⟩
  · by_cases hl : l = .step t
    · subst hl
      rw [jIllegal_step hi] at e; cases e
      exact ⟨Or.inl (Or.inl (jIllegal_free hi hf)), Nat.le_of_lt (jGood_after hi hf)⟩
    · obtain ⟨a, o⟩ := jIllegal_other h hi l hl e
      refine ⟨Or.inl (Or.inr ⟨w, a, (free_other o).2 hf⟩), ?_⟩
      rw [jTotal_illegal hi, jTotal_illegal a, statics_other o]
      have := jCost_le s.ws s'.ws s.statics (fun i hm => o.pending i (by
        obtain ⟨x, y, z⟩ := (mem_statics i).1 hm
        obtain ⟨v, hv, hn⟩ := hf i x y z
        rw [hv]; intro c; injection c with c; exact hn c))
      omega

end G3
