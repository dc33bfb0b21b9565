import Verif.Model.InitRace
import Mathlib.Data.List.Nodup
/-
C75: logging while another thread initialises.
-/
namespace G3.Props
open G3

/-- C75 fails: the message is stored after `initializeLogging` has looked for it. Everything ends normally, and neither then nor later is the
message delivered. -/
theorem C75_negation : ∃ ls s, iRun IState.start ls = some s ∧ s.pc 0 = .done ∧ s.ipc = .finished ∧ s.queue = [] ∧ s.out = [] ∧
    s.slot = some 0 :=
  ⟨[.log 0, .log 0, .init, .init, .log 0, .log 0, .log 0, .log 0, .log 0], _, rfl, rfl, rfl, rfl, rfl, rfl⟩

/-- C75 fails: `initializeLogging` takes the message while the logging thread still uses the pointer: a null pointer is dereferenced. -/
theorem C75_null : ∃ ls s, iRun IState.start ls = some s ∧ s.pc 0 = .faulty ∧ s.slot = none :=
  ⟨[.log 0, .log 0, .log 0, .init, .init, .log 0], _, rfl, rfl, rfl⟩

/-- C75 fails: the worker serves and destroys the message, without its mark, while the logging thread still changes its text. -/
theorem C75_freed : ∃ ls s, iRun IState.start ls = some s ∧ s.pc 0 = .faulty ∧ s.out = [(0, false)] :=
  ⟨[.log 0, .log 0, .log 0, .log 0, .log 0, .init, .init, .serve, .log 0], _, rfl, rfl, rfl⟩

/-- The messages on their way to the sinks, in order: those served and those in the queue, and whether they are marked. -/
def onTheWay (s : IState) : List (Nat × Bool) := s.out ++ s.queue.map fun t => (t, s.marked t)

/-- The message of the thread may be stored or handed over. -/
def IPc.hasStored : IPc → Bool
  | .stored => true
  | .read => true
  | .referred => true
  | .rewritten => true
  | .done => true
  | .faulty => true
  | _ => false

theorem IState.go_pc (s : IState) (t : Nat) (p : IPc) (k : Nat) : (s.go t p).pc k = if k = t then p else s.pc k := rfl

/-- Inside the `call_once` of line 196. -/
def IPc.inside : IPc → Bool
  | .entered => true
  | .stored => true
  | .read => true
  | .referred => true
  | .rewritten => true
  | _ => false

/-- Invariant of every schedule: no message is in two places, and at most one thread is inside the `call_once`. -/
structure IOnce (s : IState) : Prop where
  nodup : (s.out.map (·.1) ++ s.queue ++ s.slot.toList).Nodup
  mem : ∀ t ∈ s.out.map (·.1) ++ s.queue ++ s.slot.toList, IPc.hasStored (s.pc t) = true
  enter : ∀ t, s.pc t = .entered → s.slot = none
  busy : ∀ t, IPc.inside (s.pc t) = true → s.once = .busy
  one : ∀ t u, IPc.inside (s.pc t) = true → IPc.inside (s.pc u) = true → t = u
  free : s.once = .free → s.slot = none

/-- A step that moves thread t and touches none of the messages. -/
theorem iOnce_go {s s' : IState} {t : Nat} {p : IPc} (h : IOnce s) (hp : s'.pc = (s.go t p).pc) (ho : s'.out = s.out) (hq : s'.queue = s.queue)
    (hs : s'.slot = s.slot) (h1 : IPc.hasStored (s.pc t) = true → IPc.hasStored p = true) (h2 : p ≠ .entered)
    (h3 : IPc.inside p = true → IPc.inside (s.pc t) = true)
    (h4 : s'.once = .free → s.once = .free) (h5 : s'.once = s.once ∨ (IPc.inside (s.pc t) = true ∧ IPc.inside p = false)) : IOnce s' := by
  have hk : ∀ k, s'.pc k = if k = t then p else s.pc k := fun k => by rw [hp]; rfl
  have hin : ∀ k, IPc.inside (s'.pc k) = true → IPc.inside (s.pc k) = true := by
    intro k hkk
    rw [hk] at hkk
    split at hkk
    · rename_i e; rw [e]; exact h3 hkk
    · exact hkk
  refine ⟨by rw [ho, hq, hs]; exact h.nodup, ?_, ?_, ?_, ?_, ?_⟩
  · intro k hm
    rw [ho, hq, hs] at hm
    have := h.mem k hm
    rw [hk]; split
    · rename_i e; rw [e] at this; exact h1 this
    · exact this
  · intro k hkk
    rw [hk] at hkk
    split at hkk
    · exact absurd hkk h2
    · rw [hs]; exact h.enter k hkk
  · intro k hkk
    rcases h5 with e | ⟨e1, e2⟩
    · rw [e]; exact h.busy k (hin k hkk)
    · have := h.one k t (hin k hkk) e1
      rw [hk, if_pos this, e2] at hkk; cases hkk
  · intro a b ha hb; exact h.one a b (hin a ha) (hin b hb)
  · intro e; rw [hs]; exact h.free (h4 e)

theorem iOnce_step {s s' : IState} {l : ILabel} (h : IOnce s) (hs : iStep s l = some s') : IOnce s' := by
  cases l with
  | log t =>
    simp only [iStep, iLog] at hs
    split at hs <;> rename_i hpc
    · cases hs
      refine iOnce_go (t := t) (p := if s.inst then .passed else .missed) h rfl rfl rfl rfl ?_ ?_ (by rw [hpc]; first | (intro _; rfl) | (split <;> intro x <;> cases x) | (intro x; cases x)) id (Or.inl rfl)
      · rw [hpc]; intro x; cases x
      · split <;> simp
    · cases hs
      have hn : t ∉ s.out.map (·.1) ++ s.queue ++ s.slot.toList := by
        intro hm
        have := h.mem t hm
        rw [hpc] at this; cases this
      have hpm : (s.out.map (·.1) ++ (s.queue ++ [t]) ++ s.slot.toList).Perm (t :: (s.out.map (·.1) ++ s.queue ++ s.slot.toList)) := by
        rw [← List.append_assoc, List.append_assoc (s.out.map (·.1) ++ s.queue)]
        exact List.perm_middle
      refine ⟨hpm.nodup_iff.2 (List.nodup_cons.2 ⟨hn, h.nodup⟩), ?_, ?_, ?_, ?_, h.free⟩
      · intro k hm
        show IPc.hasStored (if k = t then .done else s.pc k) = true
        split
        · rfl
        · rename_i e
          rcases List.mem_cons.1 (hpm.subset hm) with x | x
          · exact absurd x e
          · exact h.mem k x
      · intro k hk
        have hk : (if k = t then IPc.done else s.pc k) = .entered := hk
        split at hk
        · cases hk
        · exact h.enter k hk
      · intro k hk
        have hk : IPc.inside (if k = t then IPc.done else s.pc k) = true := hk
        split at hk
        · cases hk
        · exact h.busy k hk
      · intro a b ha hb
        have ha : IPc.inside (if a = t then IPc.done else s.pc a) = true := ha
        have hb : IPc.inside (if b = t then IPc.done else s.pc b) = true := hb
        split at ha
        · cases ha
        · split at hb
          · cases hb
          · exact h.one a b ha hb
    · split at hs
      · rename_i ho
        cases hs
        have hne : ∀ u, ¬ IPc.inside (s.pc u) = true := fun u hu => by
          have := h.busy u hu; rw [ho] at this; cases this
        refine ⟨h.nodup, ?_, ?_, fun _ _ => rfl, ?_, fun e => (by cases e)⟩
        · intro k hm
          have := h.mem k hm
          show IPc.hasStored (if k = t then .entered else s.pc k) = true
          split
          · rename_i e; rw [e, hpc] at this; cases this
          · exact this
        · intro k _
          exact h.free ho
        · intro a b ha hb
          have ha : IPc.inside (if a = t then IPc.entered else s.pc a) = true := ha
          have hb : IPc.inside (if b = t then IPc.entered else s.pc b) = true := hb
          split at ha
          · split at hb
            · rename_i e1 e2; rw [e1, e2]
            · exact absurd hb (hne b)
          · exact absurd ha (hne a)
      · cases hs
      · cases hs
        refine iOnce_go (t := t) (p := .done) h rfl rfl rfl rfl (fun _ => rfl) (by simp) (by rw [hpc]; first | (intro _; rfl) | (split <;> intro x <;> cases x) | (intro x; cases x)) id (Or.inl rfl)
    · cases hs
      have hsl := h.enter t hpc
      have hti : IPc.inside (s.pc t) = true := by rw [hpc]; rfl
      have hon := h.busy t hti
      have hn : t ∉ s.out.map (·.1) ++ s.queue ++ s.slot.toList := by
        intro hm
        have := h.mem t hm
        rw [hpc] at this; cases this
      have e0 : s.out.map (·.1) ++ s.queue ++ s.slot.toList = s.out.map (·.1) ++ s.queue := by rw [hsl]; simp
      refine ⟨?_, ?_, ?_, fun _ _ => hon, ?_, fun e => ?_⟩
      · show (s.out.map (·.1) ++ s.queue ++ [t]).Nodup
        have hpm : (s.out.map (·.1) ++ s.queue ++ [t]).Perm (t :: (s.out.map (·.1) ++ s.queue)) := by
          simpa using List.perm_middle (a := t) (l₁ := s.out.map (·.1) ++ s.queue) (l₂ := [])
        rw [e0] at hn
        exact hpm.nodup_iff.2 (List.nodup_cons.2 ⟨hn, e0 ▸ h.nodup⟩)
      · intro k hm
        have hm : k ∈ s.out.map (·.1) ++ s.queue ++ [t] := hm
        show IPc.hasStored (if k = t then .stored else s.pc k) = true
        split
        · rfl
        · rename_i e
          rcases List.mem_append.1 hm with x | x
          · exact h.mem k (by rw [e0]; exact x)
          · exact absurd (List.mem_singleton.1 x) e
      · intro k hk
        have hk : (if k = t then IPc.stored else s.pc k) = .entered := hk
        split at hk
        · cases hk
        · rename_i e; exact absurd (h.one k t (by rw [hk]; rfl) hti) e
      · intro a b ha hb
        have hx : ∀ c, IPc.inside (if c = t then IPc.stored else s.pc c) = true → c = t := by
          intro c hc
          split at hc
          · assumption
          · exact h.one c t hc hti
        rw [hx a ha, hx b hb]
      · have e : s.once = .free := e
        rw [hon] at e; cases e
    · cases hs
      refine iOnce_go (t := t) (p := if s.slot = none then .faulty else .read) h rfl rfl rfl rfl ?_ ?_ (by rw [hpc]; first | (intro _; rfl) | (split <;> intro x <;> cases x) | (intro x; cases x)) id (Or.inl rfl)
      · intro _; split <;> rfl
      · split <;> simp
    · cases hs
      refine iOnce_go (t := t) (p := if s.slot = none then .faulty else .referred) h rfl rfl rfl rfl ?_ ?_ (by rw [hpc]; first | (intro _; rfl) | (split <;> intro x <;> cases x) | (intro x; cases x)) id (Or.inl rfl)
      · intro _; split <;> rfl
      · split <;> simp
    · split at hs
      · cases hs
        exact iOnce_go (t := t) (p := .rewritten) h rfl rfl rfl rfl (fun _ => rfl) (by simp) (by rw [hpc]; first | (intro _; rfl) | (split <;> intro x <;> cases x) | (intro x; cases x)) id (Or.inl rfl)
      · cases hs
        exact iOnce_go (t := t) (p := .faulty) h rfl rfl rfl rfl (fun _ => rfl) (by simp) (by rw [hpc]; first | (intro _; rfl) | (split <;> intro x <;> cases x) | (intro x; cases x)) id (Or.inl rfl)
    · cases hs
      have hb := h.busy t (by rw [hpc]; rfl)
      refine iOnce_go (t := t) (p := .done) h rfl rfl rfl rfl (fun _ => rfl) (by simp) (fun x => (by cases x)) (fun e => (by cases e)) (Or.inr ⟨by rw [hpc]; rfl, rfl⟩)
    · cases hs
    · cases hs
  | init =>
    simp only [iStep, iInit] at hs
    split at hs
    · cases hs; exact ⟨h.nodup, h.mem, h.enter, h.busy, h.one, h.free⟩
    · split at hs
      · cases hs
      · rename_i t ht
        cases hs
        have e : s.out.map (·.1) ++ (s.queue ++ [t]) ++ (none : Option Nat).toList = s.out.map (·.1) ++ s.queue ++ s.slot.toList := by
          rw [ht]; simp
        refine ⟨?_, ?_, fun _ _ => rfl, h.busy, h.one, fun _ => rfl⟩
        · show (s.out.map (·.1) ++ (s.queue ++ [t]) ++ (none : Option Nat).toList).Nodup
          rw [e]; exact h.nodup
        · intro k hm
          have hm : k ∈ s.out.map (·.1) ++ (s.queue ++ [t]) ++ (none : Option Nat).toList := hm
          rw [e] at hm; exact h.mem k hm
    · cases hs; exact ⟨h.nodup, h.mem, h.enter, h.busy, h.one, h.free⟩
    · cases hs
  | serve =>
    simp only [iStep] at hs
    split at hs
    · cases hs
    · rename_i t r hq
      cases hs
      have e : (s.out ++ [(t, s.marked t)]).map (·.1) ++ r ++ s.slot.toList = s.out.map (·.1) ++ s.queue ++ s.slot.toList := by
        rw [hq]; simp
      refine ⟨?_, ?_, h.enter, h.busy, h.one, h.free⟩
      · show ((s.out ++ [(t, s.marked t)]).map (·.1) ++ r ++ s.slot.toList).Nodup
        rw [e]; exact h.nodup
      · intro k hm
        have hm : k ∈ (s.out ++ [(t, s.marked t)]).map (·.1) ++ r ++ s.slot.toList := hm
        rw [e] at hm; exact h.mem k hm

theorem iOnce_start : IOnce IState.start :=
  ⟨List.nodup_nil, fun _ h => (by cases h), fun _ h => (by cases h), fun _ h => (by cases h), fun _ _ h => (by cases h), fun _ => rfl⟩

theorem iOnce_run : ∀ (ls : List ILabel) (s s' : IState), IOnce s → iRun s ls = some s' → IOnce s'
  | [], s, s', h, hr => by cases hr; exact h
  | l :: ls, s, s', h, hr => by
    simp only [iRun] at hr
    cases hs : iStep s l with
    | none => rw [hs] at hr; cases hr
    | some m => rw [hs] at hr; exact iOnce_run ls m s' (iOnce_step h hs) hr

/-- C75, what holds under every schedule: no message is handed over twice, and only one message is ever stored. -/
theorem C75_once_partial {ls : List ILabel} {s : IState} (hr : iRun IState.start ls = some s) :
    (s.out.map (·.1) ++ s.queue ++ s.slot.toList).Nodup :=
  (iOnce_run ls _ _ iOnce_start hr).nodup

/-- Only the thread that stored the first message marks it. -/
theorem iMark_step {s s' : IState} {l : ILabel} (h : ∀ t, s.marked t = true → s.pc t = .rewritten ∨ s.pc t = .done)
    (hs : iStep s l = some s') : ∀ t, s'.marked t = true → s'.pc t = .rewritten ∨ s'.pc t = .done := by
  cases l with
  | log u =>
    intro t
    have ht := h t
    by_cases e : t = u
    · subst e
      simp only [iStep, iLog] at hs
      split at hs <;> rename_i hpc <;> rw [hpc] at ht <;> (try split at hs) <;> cases hs <;> simp_all [IState.go]
    · simp only [iStep, iLog] at hs
      split at hs <;> (try split at hs) <;> cases hs <;> simpa [IState.go, e] using ht
  | init =>
    simp only [iStep, iInit] at hs
    split at hs <;> (try split at hs) <;> cases hs <;> exact h
  | serve =>
    simp only [iStep] at hs
    split at hs <;> cases hs
    exact h

theorem iMark_run : ∀ (ls : List ILabel) (s s' : IState), (∀ t, s.marked t = true → s.pc t = .rewritten ∨ s.pc t = .done) →
    iRun s ls = some s' → ∀ t, s'.marked t = true → s'.pc t = .rewritten ∨ s'.pc t = .done
  | [], s, s', h, hr => by cases hr; exact h
  | l :: ls, s, s', h, hr => by
    simp only [iRun] at hr
    cases hs : iStep s l with
    | none => rw [hs] at hr; cases hr
    | some m => rw [hs] at hr; exact iMark_run ls m s' (iMark_step h hs) hr

/-- A thread that began its LOG when the logger was there. -/
structure ILate (t : Nat) (s : IState) : Prop where
  inst : s.inst = true
  slot : s.slot ≠ some t
  mark : s.marked t = false
  pc : s.pc t = .out ∨ s.pc t = .passed ∨ (s.pc t = .done ∧ (t, false) ∈ onTheWay s)

theorem onTheWay_mono {s s' : IState} {t : Nat} (hm : s'.marked t = s.marked t) (h : (t, false) ∈ onTheWay s)
    (ho : ∀ x ∈ s.out, x ∈ s'.out) (hq : t ∈ s.queue → t ∈ s'.queue ∨ (t, s.marked t) ∈ s'.out) : (t, false) ∈ onTheWay s' := by
  simp only [onTheWay, List.mem_append, List.mem_map] at h ⊢
  rcases h with h | ⟨k, hk, e⟩
  · exact Or.inl (ho _ h)
  · obtain ⟨rfl, e⟩ := Prod.mk.inj e
    rcases hq hk with x | x
    · exact Or.inr ⟨k, x, by rw [hm, e]⟩
    · rw [e] at x; exact Or.inl x

theorem iLate_step {t : Nat} {s s' : IState} {l : ILabel} (h : ILate t s) (hs : iStep s l = some s') : ILate t s' := by
  obtain ⟨hi, hsl, hm, hp⟩ := h
  cases l with
  | log u =>
    by_cases e : t = u
    · subst e
      simp only [iStep, iLog] at hs
      rcases hp with hp | hp | ⟨hp, hw⟩ <;> rw [hp] at hs <;> simp only at hs <;> cases hs
      · exact ⟨hi, hsl, hm, Or.inr (Or.inl (by simp [IState.go, hi]))⟩
      · refine ⟨hi, hsl, hm, Or.inr (Or.inr ⟨by simp [IState.go], ?_⟩)⟩
        simp only [onTheWay, IState.go, List.mem_append, List.mem_map]
        exact Or.inr ⟨t, by simp, by rw [hm]⟩
    · have hk : ∀ p, (s.go u p).pc t = s.pc t := fun p => by simp [IState.go, e]
      simp only [iStep, iLog] at hs
      split at hs <;> (try split at hs) <;> cases hs
      all_goals
        refine ⟨hi, ?_, ?_, ?_⟩
        · first
          | exact hsl
          | (intro x; exact e (Option.some.inj x).symm)
        · first
          | exact hm
          | (show (if t = u then true else s.marked t) = false; rw [if_neg e]; exact hm)
        · rcases hp with hp | hp | ⟨hp, hw⟩
          · exact Or.inl ((hk _).trans hp)
          · exact Or.inr (Or.inl ((hk _).trans hp))
          · refine Or.inr (Or.inr ⟨(hk _).trans hp, onTheWay_mono ?_ hw (fun _ x => x) (fun x => Or.inl ?_)⟩)
            · first
              | rfl
              | (show (if t = u then true else s.marked t) = s.marked t; rw [if_neg e])
            · first
              | exact x
              | exact List.mem_append_left _ x
  | init =>
    simp only [iStep, iInit] at hs
    split at hs
    · cases hs
      exact ⟨hi, hsl, hm, hp⟩
    · split at hs
      · cases hs
      · cases hs
        refine ⟨hi, fun x => (by cases x), hm, ?_⟩
        rcases hp with hp | hp | ⟨hp, hw⟩
        · exact Or.inl hp
        · exact Or.inr (Or.inl hp)
        · exact Or.inr (Or.inr ⟨hp, onTheWay_mono (s := s) rfl hw (fun _ x => x) (fun x => Or.inl (List.mem_append_left _ x))⟩)
    · cases hs
      exact ⟨rfl, hsl, hm, hp⟩
    · cases hs
  | serve =>
    simp only [iStep] at hs
    split at hs
    · cases hs
    · rename_i k r hq
      cases hs
      refine ⟨hi, hsl, hm, ?_⟩
      rcases hp with hp | hp | ⟨hp, hw⟩
      · exact Or.inl hp
      · exact Or.inr (Or.inl hp)
      · refine Or.inr (Or.inr ⟨hp, onTheWay_mono (s := s) rfl hw (fun _ x => List.mem_append_left _ x) (fun x => ?_)⟩)
        rw [hq] at x
        rcases List.mem_cons.1 x with x | x
        · subst x; exact Or.inr (List.mem_append_right _ (List.mem_singleton.2 rfl))
        · exact Or.inl x

theorem iLate_run {t : Nat} : ∀ (ls : List ILabel) (s s' : IState), ILate t s → iRun s ls = some s' → ILate t s'
  | [], s, s', h, hr => by cases hr; exact h
  | l :: ls, s, s', h, hr => by
    simp only [iRun] at hr
    cases hs : iStep s l with
    | none => rw [hs] at hr; cases hr
    | some m => rw [hs] at hr; exact iLate_run ls m s' (iLate_step h hs) hr

/-- C75, what holds under every schedule: a LOG that begins when `initializeLogging` has set the logger never touches freed or null memory, and
once it returns its message is on its way to the sinks, unaltered. -/
theorem C75_after_partial {ls ls' : List ILabel} {s s' : IState} {t : Nat} (hr : iRun IState.start ls = some s) (hi : s.inst = true)
    (ht : s.pc t = .out) (hr' : iRun s ls' = some s') :
    s'.pc t ≠ .faulty ∧ (s'.pc t = .done → (t, false) ∈ onTheWay s') := by
  have ho := iOnce_run ls _ _ iOnce_start hr
  have hm := iMark_run ls _ _ (fun t h => (by cases h)) hr t
  have hl : ILate t s := by
    refine ⟨hi, ?_, ?_, Or.inl ht⟩
    · intro hx
      have := ho.mem t (by rw [hx]; simp)
      rw [ht] at this; cases this
    · rw [ht] at hm
      cases hmt : s.marked t with
      | false => rfl
      | true => rcases hm hmt with x | x <;> cases x
  have := iLate_run ls' s s' hl hr'
  rcases this.pc with x | x | ⟨x, y⟩
  · rw [x]; exact ⟨by simp, fun z => (by cases z)⟩
  · rw [x]; exact ⟨by simp, fun z => (by cases z)⟩
  · rw [x]; exact ⟨by simp, fun _ => y⟩

/-- Threads keep out of each other's way: `initializeLogging` runs while no LOG is in progress, LOG while `initializeLogging` is not. -/
def IOrderly (s : IState) : ILabel → Prop
  | .init => ∀ t, s.pc t = .out ∨ s.pc t = .done
  | .log _ => s.ipc = .before ∨ s.ipc = .finished
  | .serve => True

/-- Every step of the schedule keeps the rule. -/
def IOrderlyRun : IState → List ILabel → Prop
  | _, [] => True
  | s, l :: ls => IOrderly s l ∧ ∀ s', iStep s l = some s' → IOrderlyRun s' ls

/-- What holds as long as the rule is kept. -/
structure IOrd (s : IState) : Prop where
  inv : IOnce s
  ok : ∀ t, s.pc t ≠ .faulty
  inst : s.inst = true ↔ s.ipc = .finished
  mk1 : ∀ a b, s.marked a = true → s.marked b = true → a = b
  mkp : ∀ t, s.marked t = true → s.pc t = .rewritten ∨ s.pc t = .done
  rw : ∀ t, s.pc t = .rewritten → s.marked t = true
  over : s.once = .over → ∃ t, s.marked t = true ∧ s.pc t = .done
  dn : s.ipc = .before → ∀ t, s.pc t = .done → s.once = .over
  pre : s.ipc = .before ∨ s.ipc = .found → s.queue = [] ∧ s.out = []
  pas : s.ipc = .before → ∀ t, s.pc t ≠ .passed
  sl : ∀ t, IPc.inside (s.pc t) = true → s.pc t ≠ .entered → s.slot = some t
  mks : s.ipc = .before ∨ s.ipc = .found → ∀ t, s.marked t = true → s.slot = some t
  slm : ∀ t, s.slot = some t → IPc.inside (s.pc t) = true ∨ s.marked t = true
  post : s.ipc ≠ .before → ∀ t, s.pc t = .out ∨ s.pc t = .passed ∨ s.pc t = .done
  fnd : s.ipc = .found → s.slot ≠ none
  emp : s.ipc = .saved ∨ s.ipc = .finished → s.slot = none
  same : ∀ x ∈ s.out, x.2 = s.marked x.1
  hd : s.ipc = .saved ∨ s.ipc = .finished → ∀ t, s.marked t = true → ∃ r, s.out.map (·.1) ++ s.queue = t :: r

theorem iOrd_start : IOrd IState.start where
  inv := iOnce_start
  ok := fun _ => by simp [IState.start]
  inst := by simp [IState.start]
  mk1 := fun _ _ h => by cases h
  mkp := fun _ h => by cases h
  rw := fun _ h => by cases h
  over := fun h => by cases h
  dn := fun _ _ h => by cases h
  pre := fun _ => ⟨rfl, rfl⟩
  pas := fun _ _ h => by cases h
  sl := fun _ h => by cases h
  mks := fun _ _ h => by cases h
  slm := fun _ h => by cases h
  post := fun h => absurd rfl h
  fnd := fun h => by cases h
  emp := fun _ => rfl
  same := fun _ h => by cases h
  hd := fun _ _ h => by cases h

theorem iOrd_log_after {s s' : IState} {u : Nat} (h : IOrd s) (hf : s.ipc = .finished) (hs : iStep s (.log u) = some s') : IOrd s' := by
  have hinv := iOnce_step h.inv hs
  have hi : s.inst = true := h.inst.2 hf
  have hnb : s.ipc ≠ .before := by rw [hf]; simp
  simp only [iStep, iLog] at hs
  rcases h.post hnb u with hp | hp | hp <;> rw [hp] at hs <;> simp only [hi, if_true] at hs <;> cases hs
  · have hm : s.marked u ≠ true := fun x => by rcases h.mkp u x with y | y <;> rw [hp] at y <;> cases y
    have hk : ∀ k, (s.go u .passed).pc k = if k = u then .passed else s.pc k := fun _ => rfl
    refine ⟨hinv, ?_, ?_, h.mk1, ?_, ?_, ?_, ?_, h.pre, ?_, ?_, h.mks, ?_, ?_, h.fnd, h.emp, h.same, h.hd⟩
    · intro t; rw [hk]; split
      · simp
      · exact h.ok t
    · exact h.inst
    · intro t ht; rw [hk, if_neg (fun e : t = u => hm (e ▸ ht))]; exact h.mkp t ht
    · intro t ht; rw [hk] at ht; split at ht
      · cases ht
      · exact h.rw t ht
    · intro e; obtain ⟨t, a, b⟩ := h.over e
      exact ⟨t, a, by rw [hk, if_neg (fun e : t = u => hm (e ▸ a))]; exact b⟩
    · intro e; exact absurd e hnb
    · intro e; exact absurd e hnb
    · intro t ht; rw [hk] at ht ⊢; split at ht
      · cases ht
      · rename_i e; rw [if_neg e]; exact h.sl t ht
    · intro t ht
      have : s.slot = none := h.emp (Or.inr hf)
      have ht : s.slot = some t := ht
      rw [this] at ht; cases ht
    · intro _ t; rw [hk]; split
      · exact Or.inr (Or.inl rfl)
      · exact h.post hnb t
  · have hm : s.marked u ≠ true := fun x => by rcases h.mkp u x with y | y <;> rw [hp] at y <;> cases y
    have hk : ∀ k, (s.go u .done).pc k = if k = u then .done else s.pc k := fun _ => rfl
    refine ⟨hinv, ?_, ?_, h.mk1, ?_, ?_, ?_, ?_, ?_, ?_, ?_, h.mks, ?_, ?_, h.fnd, h.emp, h.same, ?_⟩
    · intro t
      show (s.go u .done).pc t ≠ _
      rw [hk]; split
      · simp
      · exact h.ok t
    · exact h.inst
    · intro t ht
      show (s.go u .done).pc t = _ ∨ (s.go u .done).pc t = _
      rw [hk, if_neg (fun e : t = u => hm (e ▸ ht))]; exact h.mkp t ht
    · intro t ht
      have ht : (s.go u .done).pc t = .rewritten := ht
      rw [hk] at ht; split at ht
      · cases ht
      · exact h.rw t ht
    · intro e; obtain ⟨t, a, b⟩ := h.over e
      refine ⟨t, a, ?_⟩
      show (s.go u .done).pc t = .done
      rw [hk, if_neg (fun e : t = u => hm (e ▸ a))]; exact b
    · intro e; exact absurd e hnb
    · intro e
      have e : s.ipc = .before ∨ s.ipc = .found := e
      rw [hf] at e; rcases e with e | e <;> cases e
    · intro e; exact absurd e hnb
    · intro t ht
      have ht : IPc.inside ((s.go u .done).pc t) = true := ht
      show (s.go u .done).pc t ≠ _ → _
      rw [hk] at ht ⊢; split at ht
      · cases ht
      · rename_i e; rw [if_neg e]; exact h.sl t ht
    · intro t ht
      have : s.slot = none := h.emp (Or.inr hf)
      have ht : s.slot = some t := ht
      rw [this] at ht; cases ht
    · intro _ t
      show (s.go u .done).pc t = _ ∨ (s.go u .done).pc t = _ ∨ (s.go u .done).pc t = _
      rw [hk]; split
      · exact Or.inr (Or.inr rfl)
      · exact h.post hnb t
    · intro _ t ht
      obtain ⟨r, hr⟩ := h.hd (Or.inr hf) t ht
      refine ⟨r ++ [u], ?_⟩
      show s.out.map (·.1) ++ (s.queue ++ [u]) = _
      rw [← List.append_assoc, hr, List.cons_append]

theorem iOrd_go_before {s s' : IState} {u : Nat} {p : IPc} (h : IOrd s) (hb : s.ipc = .before) (hinv : IOnce s')
    (hpc : ∀ k, s'.pc k = if k = u then p else s.pc k) (hi : s'.ipc = s.ipc) (hn : s'.inst = s.inst) (hq : s'.queue = s.queue)
    (ho : s'.out = s.out) (p1 : p ≠ .faulty) (p2 : p ≠ .passed)
    (mk1 : ∀ a b, s'.marked a = true → s'.marked b = true → a = b)
    (mkp : ∀ t, s'.marked t = true → s'.pc t = .rewritten ∨ s'.pc t = .done)
    (rw : ∀ t, s'.pc t = .rewritten → s'.marked t = true)
    (over : s'.once = .over → ∃ t, s'.marked t = true ∧ s'.pc t = .done)
    (dn : ∀ t, s'.pc t = .done → s'.once = .over)
    (sl : ∀ t, IPc.inside (s'.pc t) = true → s'.pc t ≠ .entered → s'.slot = some t)
    (mks : ∀ t, s'.marked t = true → s'.slot = some t)
    (slm : ∀ t, s'.slot = some t → IPc.inside (s'.pc t) = true ∨ s'.marked t = true) : IOrd s' where
  inv := hinv
  ok := fun t => by
    rw [hpc]; split
    · exact p1
    · exact h.ok t
  inst := by rw [hn, hi]; exact h.inst
  mk1 := mk1
  mkp := mkp
  rw := rw
  over := over
  dn := fun _ => dn
  pre := by rw [hi, hq, ho]; exact h.pre
  pas := fun _ t => by
    rw [hpc]; split
    · exact p2
    · exact h.pas hb t
  sl := sl
  mks := fun _ => mks
  slm := slm
  post := fun x => absurd (hi.trans hb) x
  fnd := fun x => by rw [hi, hb] at x; cases x
  emp := fun x => by rw [hi, hb] at x; rcases x with x | x <;> cases x
  same := fun x hx => by rw [ho, (h.pre (Or.inl hb)).2] at hx; cases hx
  hd := fun x => by rw [hi, hb] at x; rcases x with x | x <;> cases x

theorem iOrd_log_before {s s' : IState} {u : Nat} (h : IOrd s) (hb : s.ipc = .before) (hs : iStep s (.log u) = some s') : IOrd s' := by
  have hinv := iOnce_step h.inv hs
  have hi : s.inst = false := by
    cases hx : s.inst with
    | false => rfl
    | true => have := h.inst.1 hx; rw [hb] at this; cases this
  have a1 := h.mk1
  have a2 := h.mkp
  have a3 := h.rw
  have a4 := h.over
  have a5 := h.dn hb
  have a6 := h.sl
  have a7 := h.mks (Or.inl hb)
  have a8 := h.slm
  have a9 := h.inv.busy
  have a10 := h.inv.one
  have a11 := h.inv.free
  have a12 := h.inv.enter
  simp only [iStep, iLog] at hs
  split at hs <;> rename_i hp
  · simp only [hi] at hs
    cases hs
    refine iOrd_go_before (u := u) (p := .missed) h hb hinv (fun _ => rfl) rfl rfl rfl rfl (by simp) (by simp) ?_ ?_ ?_ ?_ ?_ ?_ ?_ ?_ <;>
      simp only [IState.go] <;> grind [IPc.inside]
  · exact absurd hp (h.pas hb u)
  · split at hs
    · cases hs
      refine iOrd_go_before (u := u) (p := .entered) h hb hinv (fun _ => rfl) rfl rfl rfl rfl (by simp) (by simp) ?_ ?_ ?_ ?_ ?_ ?_ ?_ ?_ <;>
        simp only [IState.go] <;> grind [IPc.inside]
    · cases hs
    · cases hs
      refine iOrd_go_before (u := u) (p := .done) h hb hinv (fun _ => rfl) rfl rfl rfl rfl (by simp) (by simp) ?_ ?_ ?_ ?_ ?_ ?_ ?_ ?_ <;>
        simp only [IState.go] <;> grind [IPc.inside]
  · cases hs
    refine iOrd_go_before (u := u) (p := .stored) h hb hinv (fun _ => rfl) rfl rfl rfl rfl (by simp) (by simp) ?_ ?_ ?_ ?_ ?_ ?_ ?_ ?_ <;>
      simp only [IState.go] <;> grind [IPc.inside]
  · have hsl := h.sl u (by rw [hp]; rfl) (by rw [hp]; simp)
    rw [if_neg (by rw [hsl]; simp)] at hs
    cases hs
    refine iOrd_go_before (u := u) (p := .read) h hb hinv (fun _ => rfl) rfl rfl rfl rfl (by simp) (by simp) ?_ ?_ ?_ ?_ ?_ ?_ ?_ ?_ <;>
      simp only [IState.go] <;> grind [IPc.inside]
  · have hsl := h.sl u (by rw [hp]; rfl) (by rw [hp]; simp)
    rw [if_neg (by rw [hsl]; simp)] at hs
    cases hs
    refine iOrd_go_before (u := u) (p := .referred) h hb hinv (fun _ => rfl) rfl rfl rfl rfl (by simp) (by simp) ?_ ?_ ?_ ?_ ?_ ?_ ?_ ?_ <;>
      simp only [IState.go] <;> grind [IPc.inside]
  · have hsl := h.sl u (by rw [hp]; rfl) (by rw [hp]; simp)
    rw [if_pos hsl] at hs
    cases hs
    refine iOrd_go_before (u := u) (p := .rewritten) h hb hinv (fun _ => rfl) rfl rfl rfl rfl (by simp) (by simp) ?_ ?_ ?_ ?_ ?_ ?_ ?_ ?_ <;>
      simp only [IState.go] <;> grind [IPc.inside]
  · cases hs
    refine iOrd_go_before (u := u) (p := .done) h hb hinv (fun _ => rfl) rfl rfl rfl rfl (by simp) (by simp) ?_ ?_ ?_ ?_ ?_ ?_ ?_ ?_ <;>
      simp only [IState.go] <;> grind [IPc.inside]
  · cases hs
  · cases hs

theorem iOrd_step {s s' : IState} {l : ILabel} (h : IOrd s) (ho : IOrderly s l) (hs : iStep s l = some s') : IOrd s' := by
  cases l with
  | log u =>
    rcases ho with x | x
    · exact iOrd_log_before h x hs
    · exact iOrd_log_after h x hs
  | init =>
    have ho : ∀ t, s.pc t = .out ∨ s.pc t = .done := ho
    have hinv := iOnce_step h.inv hs
    have hni : ∀ t, ¬ IPc.inside (s.pc t) = true := fun t x => by
      rcases ho t with y | y <;> rw [y] at x <;> cases x
    have hpo : ∀ t, s.pc t = .out ∨ s.pc t = .passed ∨ s.pc t = .done := fun t => by
      rcases ho t with y | y
      · exact Or.inl y
      · exact Or.inr (Or.inr y)
    simp only [iStep, iInit] at hs
    split at hs <;> rename_i hi
    · cases hs
      have hno : s.inst = false := by
        cases hx : s.inst with
        | false => rfl
        | true => have := h.inst.1 hx; rw [hi] at this; cases this
      have hmk := h.mks (Or.inl hi)
      obtain ⟨q0, o0⟩ := h.pre (Or.inl hi)
      refine ⟨hinv, h.ok, ?_, h.mk1, h.mkp, h.rw, h.over, ?_, fun _ => ⟨q0, o0⟩, ?_, h.sl, fun _ => hmk, h.slm, fun _ => hpo, ?_, ?_, h.same, ?_⟩
      · simp only [hno]; split <;> simp
      · intro e; simp only at e; split at e <;> cases e
      · intro e; simp only at e; split at e <;> cases e
      · intro e; simp only at e; split at e
        · cases e
        · assumption
      · intro e; simp only at e; split at e
        · assumption
        · rcases e with e | e <;> cases e
      · intro e t ht; simp only at e; split at e
        · rename_i x; rw [hmk t ht] at x; cases x
        · rcases e with e | e <;> cases e
    · split at hs
      · cases hs
      · rename_i t ht
        cases hs
        obtain ⟨q0, o0⟩ := h.pre (Or.inr hi)
        have hno : s.inst = false := by
          cases hx : s.inst with
          | false => rfl
          | true => have := h.inst.1 hx; rw [hi] at this; cases this
        refine ⟨hinv, h.ok, ?_, h.mk1, h.mkp, h.rw, h.over, fun e => (by cases e), fun e => (by rcases e with e | e <;> cases e), fun e => (by cases e),
          fun t x => absurd x (hni t), fun e => (by rcases e with e | e <;> cases e), fun _ e => (by cases e), fun _ => hpo, fun e => (by cases e),
          fun _ => rfl, h.same, ?_⟩
        · simp [hno]
        · intro _ k hk
          have := h.mks (Or.inr hi) k hk
          rw [ht] at this
          cases this
          exact ⟨[], by simp [q0, o0]⟩
    · cases hs
      refine ⟨hinv, h.ok, by simp, h.mk1, h.mkp, h.rw, h.over, fun e => (by cases e), fun e => (by rcases e with e | e <;> cases e), fun e => (by cases e),
          h.sl, fun e => (by rcases e with e | e <;> cases e), h.slm, fun _ => hpo, fun e => (by cases e),
          fun _ => h.emp (Or.inl hi), h.same, fun _ => h.hd (Or.inl hi)⟩
    · cases hs
  | serve =>
    have hinv := iOnce_step h.inv hs
    simp only [iStep] at hs
    split at hs
    · cases hs
    · rename_i k r hq
      cases hs
      have hne : ¬ (s.ipc = .before ∨ s.ipc = .found) := fun e => by
        have := (h.pre e).1; rw [hq] at this; cases this
      refine ⟨hinv, h.ok, h.inst, h.mk1, h.mkp, h.rw, h.over, h.dn, fun e => absurd e hne, h.pas, h.sl, h.mks, h.slm, h.post, h.fnd, h.emp, ?_, ?_⟩
      · intro x hx
        rcases List.mem_append.1 hx with y | y
        · exact h.same x y
        · rw [List.mem_singleton.1 y]
      · intro e t ht
        obtain ⟨r', hr⟩ := h.hd e t ht
        refine ⟨r', ?_⟩
        rw [hq] at hr
        rw [← hr]; simp

theorem iOrd_run : ∀ (ls : List ILabel) (s s' : IState), IOrd s → IOrderlyRun s ls → iRun s ls = some s' → IOrd s'
  | [], s, s', h, _, hr => by cases hr; exact h
  | l :: ls, s, s', h, ho, hr => by
    simp only [iRun] at hr
    cases hs : iStep s l with
    | none => rw [hs] at hr; cases hr
    | some m => rw [hs] at hr; exact iOrd_run ls m s' (iOrd_step h ho.1 hs) (ho.2 m hs) hr

theorem onTheWay_ord {s : IState} (h : IOrd s) : onTheWay s = (s.out.map (·.1) ++ s.queue).map fun t => (t, s.marked t) := by
  have : s.out = (s.out.map (·.1)).map fun t => (t, s.marked t) := by
    rw [List.map_map]
    conv_lhs => rw [← List.map_id s.out]
    refine List.map_congr_left fun x hx => ?_
    show x = (x.1, s.marked x.1)
    rw [← h.same x hx]
  rw [List.map_append, ← this]
  rfl

/-- C75 under the rule: no schedule makes a LOG touch null or destroyed memory. -/
theorem C75_orderly_safe_partial {ls : List ILabel} {s : IState} (ho : IOrderlyRun IState.start ls) (hr : iRun IState.start ls = some s) (t : Nat) :
    s.pc t ≠ .faulty :=
  (iOrd_run ls _ _ iOrd_start ho hr).ok t

theorem iOver_step {s s' : IState} {l : ILabel} (h : s.once = .over) (hni : ∀ t, IPc.inside (s.pc t) = true → False) (hs : iStep s l = some s') :
    s'.once = .over ∧ s'.marked = s.marked := by
  cases l with
  | log u =>
    have := hni u
    simp only [iStep, iLog, h] at hs
    split at hs <;> rename_i hp <;> rw [hp] at this <;>
      first
      | exact absurd rfl this
      | (cases hs; exact ⟨h, rfl⟩)
      | cases hs
  | init =>
    simp only [iStep, iInit] at hs
    split at hs <;> (try split at hs) <;> cases hs <;> exact ⟨h, rfl⟩
  | serve =>
    simp only [iStep] at hs
    split at hs <;> cases hs
    exact ⟨h, rfl⟩

theorem iOver_run : ∀ (ls : List ILabel) (s s' : IState), IOnce s → s.once = .over → iRun s ls = some s' → s'.once = .over ∧ s'.marked = s.marked
  | [], s, s', _, h, hr => by cases hr; exact ⟨h, rfl⟩
  | l :: ls, s, s', hi, h, hr => by
    simp only [iRun] at hr
    cases hs : iStep s l with
    | none => rw [hs] at hr; cases hr
    | some m =>
      rw [hs] at hr
      obtain ⟨a, b⟩ := iOver_step h (fun t x => by have := hi.busy t x; rw [h] at this; cases this) hs
      obtain ⟨c, d⟩ := iOver_run ls m s' (iOnce_step hi hs) a hr
      exact ⟨c, d.trans b⟩

/-- C75 under the rule: if a LOG returned before `initializeLogging` began, then once that has returned one of those early messages is the first
on its way to the sinks, marked, and every later message follows it unaltered. -/
theorem C75_orderly_first_partial {ls ls' : List ILabel} {s s' : IState} {t : Nat} (ho : IOrderlyRun IState.start ls)
    (hr : iRun IState.start ls = some s) (hb : s.ipc = .before) (ht : s.pc t = .done) (ho' : IOrderlyRun s ls') (hr' : iRun s ls' = some s')
    (hf : s'.ipc = .finished) :
    ∃ t0 rest, s.pc t0 = .done ∧ onTheWay s' = (t0, true) :: rest ∧ ∀ x ∈ rest, x.2 = false := by
  have h := iOrd_run ls _ _ iOrd_start ho hr
  have h' := iOrd_run ls' _ _ h ho' hr'
  have hov := h.dn hb t ht
  obtain ⟨t0, hm, hd⟩ := h.over hov
  obtain ⟨_, hmm⟩ := iOver_run ls' s s' h.inv hov hr'
  have hm' : s'.marked t0 = true := by rw [hmm]; exact hm
  obtain ⟨r, hr0⟩ := h'.hd (Or.inr hf) t0 hm'
  refine ⟨t0, r.map fun t => (t, s'.marked t), hd, ?_, ?_⟩
  · rw [onTheWay_ord h', hr0, List.map_cons, hm']
  · intro x hx
    obtain ⟨k, hk, rfl⟩ := List.mem_map.1 hx
    show s'.marked k = false
    cases hkm : s'.marked k with
    | false => rfl
    | true =>
      have hn := h'.inv.nodup
      rw [hr0, h'.mk1 t0 k hm' hkm] at hn
      have := (List.nodup_append.1 hn).1
      exact absurd hk (List.nodup_cons.1 this).1

theorem iNone_run : ∀ (ls : List ILabel) (s s' : IState), IOrd s → IOrderlyRun s ls → s.ipc ≠ .before → iRun s ls = some s' → s'.marked = s.marked
  | [], s, s', _, _, _, hr => by cases hr; rfl
  | l :: ls, s, s', h, ho, hb, hr => by
    simp only [iRun] at hr
    cases hs : iStep s l with
    | none => rw [hs] at hr; cases hr
    | some m =>
      rw [hs] at hr
      have hm : m.ipc ≠ .before ∧ m.marked = s.marked := by
        cases l with
        | log u =>
          simp only [iStep, iLog] at hs
          rcases h.post hb u with hp | hp | hp <;> rw [hp] at hs <;> cases hs <;> exact ⟨hb, rfl⟩
        | init =>
          simp only [iStep, iInit] at hs
          split at hs
          · rename_i e; exact absurd e hb
          · split at hs <;> cases hs
            exact ⟨by simp, rfl⟩
          · cases hs; exact ⟨by simp, rfl⟩
          · cases hs
        | serve =>
          simp only [iStep] at hs
          split at hs <;> cases hs
          exact ⟨hb, rfl⟩
      exact (iNone_run ls m s' (iOrd_step h ho.1 hs) (ho.2 m hs) hm.1 hr).trans hm.2

/-- C75 under the rule: if no LOG ran before, nothing marked ever reaches the sinks. -/
theorem C75_orderly_none_partial {ls : List ILabel} {s s' : IState} {ls' : List ILabel} (ho : IOrderlyRun IState.start ls)
    (hr : iRun IState.start ls = some s) (hout : ∀ t, s.pc t = .out) (ho' : IOrderlyRun s (.init :: ls'))
    (hr' : iRun s (.init :: ls') = some s') : ∀ x ∈ onTheWay s', x.2 = false := by
  have h := iOrd_run ls _ _ iOrd_start ho hr
  have h' := iOrd_run _ _ _ h ho' hr'
  have hm : ∀ k, s.marked k = false := fun k => by
    cases hk : s.marked k with
    | false => rfl
    | true => rcases h.mkp k hk with x | x <;> rw [hout] at x <;> cases x
  have hmm : s'.marked = s.marked := by
    simp only [iRun] at hr'
    cases hs : iStep s .init with
    | none => rw [hs] at hr'; cases hr'
    | some m =>
      rw [hs] at hr'
      have hx : m.ipc ≠ .before ∧ m.marked = s.marked := by
        simp only [iStep, iInit] at hs
        split at hs
        · cases hs; exact ⟨by simp only; split <;> simp, rfl⟩
        · split at hs <;> cases hs
          exact ⟨by simp, rfl⟩
        · cases hs; exact ⟨by simp, rfl⟩
        · cases hs
      exact (iNone_run ls' m s' (iOrd_step h ho'.1 hs) (ho'.2 m hs) hx.1 hr').trans hx.2
  intro x hx
  rw [onTheWay_ord h'] at hx
  obtain ⟨k, _, rfl⟩ := List.mem_map.1 hx
  show s'.marked k = false
  rw [hmm, hm]

/-- Under every schedule, a message served before or in the queue stays on its way. -/
theorem iKept_step {s s' : IState} {l : ILabel} {t : Nat} (h : t ∈ s.out.map (·.1) ++ s.queue) (hs : iStep s l = some s') :
    t ∈ s'.out.map (·.1) ++ s'.queue := by
  cases l with
  | log u =>
    simp only [iStep, iLog] at hs
    split at hs <;> (try split at hs) <;> cases hs <;> simp_all [IState.go]
    rcases h with x | x <;> simp [x]
  | init =>
    simp only [iStep, iInit] at hs
    split at hs <;> (try split at hs) <;> cases hs <;> simp_all
    rcases h with x | x <;> simp [x]
  | serve =>
    simp only [iStep] at hs
    split at hs
    · cases hs
    · rename_i k r hq
      cases hs
      rw [hq] at h
      simp at h ⊢
      rcases h with x | x | x <;> simp [x]

/-- C75, what holds under every schedule: a message once handed over is not lost again. -/
theorem C75_kept_partial {t : Nat} : ∀ (ls : List ILabel) (s s' : IState), t ∈ s.out.map (·.1) ++ s.queue → iRun s ls = some s' →
    t ∈ s'.out.map (·.1) ++ s'.queue
  | [], s, s', h, hr => by cases hr; exact h
  | l :: ls, s, s', h, hr => by
    simp only [iRun] at hr
    cases hs : iStep s l with
    | none => rw [hs] at hr; cases hr
    | some m => rw [hs] at hr; exact C75_kept_partial ls m s' (iKept_step h hs) hr

/-- An orderly schedule: thread 0 and then thread 1 log, initialisation, thread 2 logs, the worker serves. -/
def C75_schedule : List ILabel :=
  [.log 0, .log 0, .log 0, .log 0, .log 0, .log 0, .log 0, .log 1, .log 1, .init, .init, .init, .log 2, .serve, .log 2, .serve]

example : ∃ s, iRun IState.start C75_schedule = some s ∧ s.out = [(0, true), (2, false)] ∧ s.ipc = .finished := ⟨_, rfl, rfl, rfl⟩

/-- The hypotheses of `C75_orderly_first_partial` are met by it. -/
example : ∃ s s', iRun IState.start (C75_schedule.take 9) = some s ∧ iRun s (C75_schedule.drop 9) = some s' ∧ s.ipc = .before ∧ s.pc 1 = .done ∧
    s'.ipc = .finished ∧ IOrderlyRun IState.start (C75_schedule.take 9) ∧ IOrderlyRun s (C75_schedule.drop 9) := by
  refine ⟨_, _, rfl, rfl, rfl, rfl, rfl, ?_, ?_⟩
  · refine ⟨Or.inl rfl, fun _ h => ?_⟩; cases h
    refine ⟨Or.inl rfl, fun _ h => ?_⟩; cases h
    refine ⟨Or.inl rfl, fun _ h => ?_⟩; cases h
    refine ⟨Or.inl rfl, fun _ h => ?_⟩; cases h
    refine ⟨Or.inl rfl, fun _ h => ?_⟩; cases h
    refine ⟨Or.inl rfl, fun _ h => ?_⟩; cases h
    refine ⟨Or.inl rfl, fun _ h => ?_⟩; cases h
    refine ⟨Or.inl rfl, fun _ h => ?_⟩; cases h
    refine ⟨Or.inl rfl, fun _ h => ?_⟩; cases h
    trivial
  · refine ⟨fun t => ?_, fun _ h => ?_⟩
    · by_cases h0 : t = 0 <;> by_cases h1 : t = 1 <;> simp [IState.go, IState.start, h0, h1]
    cases h
    refine ⟨fun t => ?_, fun _ h => ?_⟩
    · by_cases h0 : t = 0 <;> by_cases h1 : t = 1 <;> simp [IState.go, IState.start, h0, h1]
    cases h
    refine ⟨fun t => ?_, fun _ h => ?_⟩
    · by_cases h0 : t = 0 <;> by_cases h1 : t = 1 <;> simp [IState.go, IState.start, h0, h1]
    cases h
    refine ⟨Or.inr rfl, fun _ h => ?_⟩; cases h
    refine ⟨trivial, fun _ h => ?_⟩; cases h
    refine ⟨Or.inr rfl, fun _ h => ?_⟩; cases h
    refine ⟨trivial, fun _ h => ?_⟩; cases h
    trivial

/-- The hypotheses of `C75_orderly_none_partial`. -/
example : ∃ s, iRun IState.start [.init, .init, .log 0, .log 0] = some s ∧ IOrderlyRun IState.start [.init, .init, .log 0, .log 0] ∧
    onTheWay s = [(0, false)] := by
  refine ⟨_, rfl, ?_, rfl⟩
  refine ⟨fun _ => Or.inl rfl, fun _ h => ?_⟩; cases h
  refine ⟨fun _ => Or.inl rfl, fun _ h => ?_⟩; cases h
  refine ⟨Or.inr rfl, fun _ h => ?_⟩; cases h
  refine ⟨Or.inr rfl, fun _ h => ?_⟩; cases h
  trivial

/-- The hypotheses of `C75_after_partial` in the middle of a race: thread 0 is inside its LOG when thread 1 begins. -/
example : ∃ s s', iRun IState.start [.log 0, .log 0, .log 0, .init, .init, .init] = some s ∧ s.inst = true ∧ s.pc 1 = .out ∧
    iRun s [.log 1, .serve, .log 0, .log 1] = some s' ∧ s'.pc 1 = .done ∧ s'.pc 0 = .faulty :=
  ⟨_, _, rfl, rfl, rfl, rfl, rfl, rfl⟩

end G3.Props
