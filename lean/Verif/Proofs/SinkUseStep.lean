import Verif.Props.StuckSink
import Verif.Model.SinkUse
/-
What a step of the worker model does to one sink and to the synchronous calls, by label. Used for `Verif.Props.SinkUse`.
-/
namespace G3.Props
open G3 G3.Spec

variable {M : Type}

/-- What a step `l` does to sink `i`. -/
inductive SkTr (i : Nat) (l : WLabel M) : SinkSt M → SinkSt M → Prop
  | same (k) : SkTr i l k k
  | push (k) (x : SItem M) : SkTr i l k (k.push x)
  | stop (k) : SkTr i l k k.stop
  | stopReap (k) : SkTr i l k { k.stop with reaping := true }
  | hold (k) : l = .hold i → SkTr i l k { k with refs := k.refs + 1 }
  | rel (k) : l = .release i → 0 < k.refs → SkTr i l k { k with refs := k.refs - 1 }
  | relStop (k) : l = .release i → 0 < k.refs → SkTr i l k { ({ k with refs := k.refs - 1 } : SinkSt M).stop with reaping := true }
  | dest (k) : SkTr i l k { k with destroyed := true }
  | reap (k) : l = .reap i → SkTr i l k { k with destroyed := true, reaping := false }
  | pop (k) (x : SItem M) (r) : k.running = none → k.q = x :: r → SkTr i l k { k with q := r, running := some x }
  | fin (k) (x : SItem M) : l = .sinkFin i → k.running = some x → SkTr i l k { k with running := none, done := k.done ++ [x] }
  | finStop (k) : l = .sinkFin i → k.running = some .stop → SkTr i l k { k with running := none, exited := true }
  | block (k) (m) : l = .sinkFatal i m → SkTr i l k { k with blocked := true }

theorem skTr_at {sk : Nat → SinkSt M} {i j : Nat} {l : WLabel M} {f : SinkSt M → SinkSt M}
    (h : SkTr i l (sk i) (f (sk i))) : SkTr j l (sk j) (updSink sk i f j) := by
  by_cases hj : j = i
  · subst hj; rw [updSink_self]; exact h
  · rw [updSink_ne _ _ hj]; exact .same _

theorem skTr_step {s s' : WState M} {l : WLabel M} (hi : AllInv s) (h : wStep s l = some s') (j : Nat) : SkTr j l (s.sk j) (s'.sk j) := by
  unfold wStep at h
  split at h
  · cases h
  cases l with
  | save m => simp only at h; split at h <;> cases h <;> exact .same _
  | fatal m => simp only at h; split at h <;> cases h <;> exact .same _
  | add =>
    simp only [Option.some.injEq] at h
    subst h
    have hf : SkTr s.n (.add : WLabel M) (s.sk s.n) ((fun _ => SinkSt.fresh) (s.sk s.n)) := by
      rw [hi.w.sinks.fresh s.n (Nat.le_refl _)]; exact .same _
    unfold addStep beginCall
    split
    · exact .same _
    · split
      · dsimp only [pushTask]; apply skTr_at; exact hf
      · dsimp only [pushTask]; apply skTr_at; exact hf
  | remove i =>
    simp only at h
    split at h
    · simp only [Option.some.injEq] at h; subst h; unfold beginCall
      split
      · exact .same _
      · split <;> exact .same _
    · cases h
  | clear =>
    simp only [Option.some.injEq] at h; subst h; unfold beginCall
    split
    · exact .same _
    · split <;> exact .same _
  | ret k =>
    simp only [retStep] at h
    split at h
    · cases h
    · split at h
      · split at h
        · simp only [Option.some.injEq] at h
          subst h
          unfold clientDrop
          split
          · exact .same _
          · dsimp only; apply skTr_at; exact (.stopReap _)
        · cases h; exact .same _
      · cases h
  | hold i => simp only at h; split at h <;> cases h; dsimp only; apply skTr_at; exact (.hold _ rfl)
  | holdFail i c => simp only at h; split at h <;> cases h; exact .same _
  | call i c => simp only at h; split at h <;> cases h; dsimp only; apply skTr_at; exact (.push _ _)
  | release i =>
    simp only at h
    split at h
    · next hc =>
      simp only [Option.some.injEq] at h
      subst h
      unfold clientDrop
      split
      · dsimp only; apply skTr_at; exact (.rel _ rfl hc.2)
      · simp only [updSink_updSink]
        apply skTr_at; exact (.relStop _ rfl hc.2)
    · cases h
  | reap i => simp only at h; split at h <;> cases h; dsimp only; apply skTr_at; exact (.reap _ rfl)
  | dtor =>
    simp only [dtorStep] at h
    split at h
    · cases h; exact .same _
    · split at h <;> cases h; exact .same _
    · split at h <;> cases h; exact .same _
    · split at h
      · cases h; exact .same _
      · split at h <;> cases h
        · exact .same _
        · dsimp only; apply skTr_at; exact (.stop _)
    · split at h <;> cases h; dsimp only; apply skTr_at; exact (.dest _)
    · cases h
  | work =>
    simp only [workStep] at h
    split at h
    · unfold takeTask at h
      split at h
      · cases h
      · split at h <;> cases h <;> exact .same _
      · cases h; exact .same _
      · cases h; exact .same _
      · split at h <;> cases h <;> exact .same _
      · cases h; exact .same _
      · cases h; exact .same _
    · cases h; dsimp only; apply skTr_at; exact (.push _ _)
    · cases h; exact .same _
    · cases h; exact .same _
    · split at h <;> cases h
      · exact .same _
      · dsimp only; apply skTr_at; exact (.stop _)
    · split at h <;> cases h; dsimp only; apply skTr_at; exact (.dest _)
    · split at h
      · split at h <;> cases h <;> exact .same _
      · split at h <;> cases h
        · exact .same _
        · dsimp only; apply skTr_at; exact (.stop _)
    · split at h <;> cases h; dsimp only; apply skTr_at; exact (.dest _)
    · cases h
    · cases h
  | sinkPop i =>
    simp only [sinkPop] at h
    split at h
    · next hc =>
      split at h
      · cases h
      · next x r hq => cases h; dsimp only; apply skTr_at; exact (.pop _ x r hc.2.1 hq)
    · cases h
  | sinkFin i =>
    simp only [sinkFin] at h
    split at h
    · split at h
      · cases h
      · next hr => cases h; dsimp only; apply skTr_at; exact (.finStop _ rfl hr)
      · next hr => cases h; dsimp only; apply skTr_at; exact (.fin _ _ rfl hr)
    · cases h
  | sinkFatal i m =>
    simp only at h
    split at h
    · split at h
      · cases h; exact .same _
      · cases h; dsimp only; apply skTr_at; exact (.block _ m rfl)
    · cases h

/-! ### What follows for one sink -/

theorem skTr_running {i : Nat} {l : WLabel M} {k k' : SinkSt M} (h : SkTr i l k k') (hl : l ≠ .sinkFin i) {x : SItem M} (hr : k.running = some x) :
    k'.running = some x := by
  cases h with
  | pop y r hn => rw [hr] at hn; cases hn
  | fin y e => exact absurd e hl
  | finStop e => exact absurd e hl
  | _ => exact hr

theorem skTr_done {i : Nat} {l : WLabel M} {k k' : SinkSt M} (h : SkTr i l k k') (hl : l ≠ .sinkFin i) : k'.done = k.done ∧ k'.exited = k.exited := by
  cases h with
  | fin y e => exact absurd e hl
  | finStop e => exact absurd e hl
  | _ => exact ⟨rfl, rfl⟩

theorem skTr_blocked {i : Nat} {l : WLabel M} {k k' : SinkSt M} (h : SkTr i l k k') (hl : ∀ m, l ≠ .sinkFatal i m) : k'.blocked = k.blocked := by
  cases h with
  | block m e => exact absurd e (hl m)
  | _ => rfl

theorem skTr_refs {i : Nat} {l : WLabel M} {k k' : SinkSt M} (h : SkTr i l k k') (h1 : l ≠ .hold i) (h2 : l ≠ .release i) : k'.refs = k.refs := by
  cases h with
  | hold e => exact absurd e h1
  | rel e => exact absurd e h2
  | relStop e => exact absurd e h2
  | _ => rfl

theorem skTr_reaping {i : Nat} {l : WLabel M} {k k' : SinkSt M} (h : SkTr i l k k') (h1 : l ≠ .reap i) (hr : k.reaping = true) : k'.reaping = true := by
  cases h with
  | reap e => exact absurd e h1
  | stopReap => rfl
  | relStop => rfl
  | _ => exact hr

theorem skTr_stopSent {i : Nat} {l : WLabel M} {k k' : SinkSt M} (h : SkTr i l k k') (hr : k.stopSent = true) : k'.stopSent = true := by
  cases h <;> first | exact hr | rfl

theorem stop_last {k : SinkSt M} (h : LInv k) (hr : k.running = some .stop) : k.q = [] := by
  obtain ⟨pay, hp, hf⟩ := h.shape
  have he : k.exited = false := by
    cases e : k.exited with
    | false => rfl
    | true => have := (h.exit e).2; rw [hr] at this; cases this
  rcases List.eq_nil_or_concat k.q with hq | ⟨q, y, hq⟩
  · exact hq
  · exfalso
    rw [full, hr, he, hq] at hf
    cases hs : k.stopSent with
    | false =>
      rw [hs] at hf
      have : SItem.stop ∈ pay ++ (if false = true then [SItem.stop] else []) := by rw [← hf]; simp
      simp at this; exact hp this
    | true =>
      rw [hs] at hf
      have e : (k.done ++ [SItem.stop] ++ q) ++ [y] = pay ++ [SItem.stop] := by simpa using hf
      have := (List.append_inj' e rfl).1
      exact hp (by rw [← this]; simp)

theorem skTr_tasks {i : Nat} {l : WLabel M} {k k' : SinkSt M} (hv : LInv k) (h : SkTr i l k k') {p : Nat} {x : SItem M} (hx : x ≠ .stop)
    (hp : (taskList k)[p]? = some x) : (taskList k')[p]? = some x := by
  have app : ∀ y, taskList k' = taskList k ++ [y] → (taskList k')[p]? = some x := by
    intro y e
    rw [e, List.getElem?_append_left (List.getElem?_eq_some_iff.1 hp).1]; exact hp
  cases h with
  | push y => exact app y (by simp [taskList, SinkSt.push])
  | stop => exact app .stop (by simp [taskList, SinkSt.stop])
  | stopReap => exact app .stop (by simp [taskList, SinkSt.stop])
  | relStop => exact app .stop (by simp [taskList, SinkSt.stop])
  | pop y r hn hq => simpa [taskList, hn, hq] using hp
  | fin y e hr => simpa [taskList, hr] using hp
  | finStop e hr =>
    have hq := stop_last hv hr
    simp only [taskList, hr, hq, Option.toList, List.append_nil] at hp ⊢
    rcases Nat.lt_or_ge p k.done.length with hl | hl
    · rwa [List.getElem?_append_left hl] at hp
    · rw [List.getElem?_append_right hl] at hp
      cases e : p - k.done.length with
      | zero => rw [e] at hp; simp at hp; exact absurd hp.symm hx
      | succ n => rw [e] at hp; simp at hp
  | _ => exact hp

/-! ### The synchronous calls -/

/-- The kind of the call that a label begins. -/
def beginsKind (n : Nat) : WLabel M → Option WKind
  | .add => some (.add n)
  | .remove j => some (.remove j)
  | .clear => some .clear
  | _ => none

/-- What a step `l` does to the list of synchronous calls. -/
inductive ClTr (n : Nat) (l : WLabel M) : List WCall → List WCall → Prop
  | same (cs) : ClTr n l cs cs
  | more (cs) (d : WCall) : beginsKind n l = some d.kind → d.returned = false → ClTr n l cs (cs ++ [d])
  | set (cs) (k) (c : WCall) : l = .ret k → cs[k]? = some c → c.returned = false → ClTr n l cs (cs.set k { c with returned := true })

theorem clTr_step {s s' : WState M} {l : WLabel M} (h : wStep s l = some s') :
    ClTr s.n l s.calls s'.calls ∧ (beginsKind s.n l ≠ none → s'.ub = false → ∃ d : WCall, d.returned = false ∧ beginsKind s.n l = some d.kind ∧ s'.calls = s.calls ++ [d]) ∧
    (∀ k, l = .ret k → ∃ c, s.calls[k]? = some c ∧ c.returned = false ∧ ready s c = true ∧ s'.calls = s.calls.set k { c with returned := true }) ∧
    (s'.n = s.n ∨ l = .add ∧ s'.n = s.n + 1) := by
  unfold wStep at h
  split at h
  · cases h
  next hg =>
  cases l with
  | save m => simp only at h; split at h <;> cases h <;> exact ⟨.same _, fun e => absurd rfl e, fun k e => (by cases e), Or.inl rfl⟩
  | fatal m => simp only at h; split at h <;> cases h <;> exact ⟨.same _, fun e => absurd rfl e, fun k e => (by cases e), Or.inl rfl⟩
  | add =>
    simp only [Option.some.injEq] at h
    subst h
    unfold addStep beginCall
    split
    · exact ⟨.same _, fun _ e => (by cases e), fun k e => (by cases e), Or.inl rfl⟩
    · split
      · exact ⟨.more _ _ rfl rfl, fun _ _ => ⟨_, rfl, rfl, rfl⟩, fun k e => (by cases e), Or.inr ⟨rfl, rfl⟩⟩
      · exact ⟨.more _ _ rfl rfl, fun _ _ => ⟨_, rfl, rfl, rfl⟩, fun k e => (by cases e), Or.inr ⟨rfl, rfl⟩⟩
  | remove i =>
    simp only at h
    split at h
    · simp only [Option.some.injEq] at h; subst h; unfold beginCall
      split
      · exact ⟨.same _, fun _ e => (by cases e), fun k e => (by cases e), Or.inl rfl⟩
      · split
        · exact ⟨.more _ _ rfl rfl, fun _ _ => ⟨_, rfl, rfl, rfl⟩, fun k e => (by cases e), Or.inl rfl⟩
        · exact ⟨.more _ _ rfl rfl, fun _ _ => ⟨_, rfl, rfl, rfl⟩, fun k e => (by cases e), Or.inl rfl⟩
    · cases h
  | clear =>
    simp only [Option.some.injEq] at h; subst h; unfold beginCall
    split
    · exact ⟨.same _, fun _ e => (by cases e), fun k e => (by cases e), Or.inl rfl⟩
    · split
      · exact ⟨.more _ _ rfl rfl, fun _ _ => ⟨_, rfl, rfl, rfl⟩, fun k e => (by cases e), Or.inl rfl⟩
      · exact ⟨.more _ _ rfl rfl, fun _ _ => ⟨_, rfl, rfl, rfl⟩, fun k e => (by cases e), Or.inl rfl⟩
  | ret k =>
    simp only [retStep] at h
    split at h
    · cases h
    · next c hk =>
      split at h
      · next hc =>
        have fin : ∀ s1 : WState M, s1.calls = s.calls.set k { c with returned := true } → s1.n = s.n →
            ClTr s.n (.ret k : WLabel M) s.calls s1.calls ∧ (beginsKind s.n (.ret k : WLabel M) ≠ none → s1.ub = false → ∃ d : WCall, d.returned = false ∧ beginsKind s.n (.ret k : WLabel M) = some d.kind ∧ s1.calls = s.calls ++ [d]) ∧
            (∀ k', (.ret k : WLabel M) = .ret k' → ∃ c, s.calls[k']? = some c ∧ c.returned = false ∧ ready s c = true ∧ s1.calls = s.calls.set k' { c with returned := true }) ∧
            (s1.n = s.n ∨ (.ret k : WLabel M) = .add ∧ s1.n = s.n + 1) := by
          intro s1 e en
          refine ⟨by rw [e]; exact .set _ k c rfl hk hc.1, fun e => absurd rfl e, ?_, Or.inl en⟩
          intro k' ek
          cases ek
          exact ⟨c, hk, hc.1, hc.2, e⟩
        split at h
        · simp only [Option.some.injEq] at h
          subst h
          unfold clientDrop
          split
          · exact fin _ rfl rfl
          · exact fin _ rfl rfl
        · cases h; exact fin _ rfl rfl
      · cases h
  | hold i => simp only at h; split at h <;> cases h; exact ⟨.same _, fun e => absurd rfl e, fun k e => (by cases e), Or.inl rfl⟩
  | holdFail i c => simp only at h; split at h <;> cases h; exact ⟨.same _, fun e => absurd rfl e, fun k e => (by cases e), Or.inl rfl⟩
  | call i c => simp only at h; split at h <;> cases h; exact ⟨.same _, fun e => absurd rfl e, fun k e => (by cases e), Or.inl rfl⟩
  | release i =>
    simp only at h
    split at h
    · simp only [Option.some.injEq] at h
      subst h
      unfold clientDrop
      split <;> exact ⟨.same _, fun e => absurd rfl e, fun k e => (by cases e), Or.inl rfl⟩
    · cases h
  | reap i => simp only at h; split at h <;> cases h; exact ⟨.same _, fun e => absurd rfl e, fun k e => (by cases e), Or.inl rfl⟩
  | dtor =>
    simp only [dtorStep] at h
    repeat' split at h
    all_goals first
      | cases h; done
      | cases h; exact ⟨.same _, fun e => absurd rfl e, fun k e => (by cases e), Or.inl rfl⟩
  | work =>
    simp only [workStep, takeTask] at h
    repeat' split at h
    all_goals first
      | cases h; done
      | cases h; exact ⟨.same _, fun e => absurd rfl e, fun k e => (by cases e), Or.inl rfl⟩
  | sinkPop i =>
    simp only [sinkPop] at h
    repeat' split at h
    all_goals first
      | cases h; done
      | cases h; exact ⟨.same _, fun e => absurd rfl e, fun k e => (by cases e), Or.inl rfl⟩
  | sinkFin i =>
    simp only [sinkFin] at h
    repeat' split at h
    all_goals first
      | cases h; done
      | cases h; exact ⟨.same _, fun e => absurd rfl e, fun k e => (by cases e), Or.inl rfl⟩
  | sinkFatal i m =>
    simp only at h
    repeat' split at h
    all_goals first
      | cases h; done
      | cases h; exact ⟨.same _, fun e => absurd rfl e, fun k e => (by cases e), Or.inl rfl⟩

theorem clTr_get {n : Nat} {l : WLabel M} {cs cs' : List WCall} (h : ClTr n l cs cs') {k : Nat} {c : WCall} (hk : cs[k]? = some c) (hl : l ≠ .ret k) :
    cs'[k]? = some c := by
  cases h with
  | same => exact hk
  | more d _ _ => rw [List.getElem?_append_left (List.getElem?_eq_some_iff.1 hk).1]; exact hk
  | set k' c' e _ _ =>
    have hne : k' ≠ k := by rintro rfl; exact hl e
    rw [List.getElem?_set_ne hne]; exact hk

/-- Calls that have not returned were there before, or begin now. -/
theorem clTr_old {n : Nat} {l : WLabel M} {cs cs' : List WCall} (h : ClTr n l cs cs') {k : Nat} {c : WCall} (hk : cs'[k]? = some c)
    (hr : c.returned = false) : cs[k]? = some c ∨ (k = cs.length ∧ beginsKind n l = some c.kind) := by
  cases h with
  | same => exact Or.inl hk
  | more d hd _ =>
    rcases Nat.lt_or_ge k cs.length with hl | hl
    · rw [List.getElem?_append_left hl] at hk; exact Or.inl hk
    · rw [List.getElem?_append_right hl] at hk
      cases e : k - cs.length with
      | zero => rw [e] at hk; simp at hk; subst hk; exact Or.inr ⟨by omega, hd⟩
      | succ m => rw [e] at hk; simp at hk
  | set k' c' e hc hc' =>
    left
    by_cases hkk : k' = k
    · subst hkk
      rw [List.getElem?_set_self (List.getElem?_eq_some_iff.1 hc).1] at hk
      cases hk; cases hr
    · rwa [List.getElem?_set_ne hkk] at hk

theorem clTr_len {n : Nat} {l : WLabel M} {cs cs' : List WCall} (h : ClTr n l cs cs') : cs.length ≤ cs'.length := by
  cases h <;> simp

end G3.Props
