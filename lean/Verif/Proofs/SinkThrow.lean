import Verif.Props.WorkerLive
import Verif.Spec.SinkThrow
import Verif.Props.StuckSink
import Mathlib.Data.List.Induction
/-
Lemmas for C91.
-/
namespace G3.Props
open G3 G3.Spec

variable {M : Type}

/-- The thread of a sink stands still. -/
def Still (k k' : SinkSt M) : Prop := k'.running = k.running ∧ k'.done = k.done ∧ k'.blocked = k.blocked ∧ k'.exited = k.exited

theorem Still.rfl' (k : SinkSt M) : Still k k := ⟨rfl, rfl, rfl, rfl⟩

/-- While a callback runs on the thread of a sink, only steps of that thread change what it does. -/
theorem still_step {s s' : WState M} {l : WLabel M} {i : Nat} (h : wStep s l = some s') (hl : l ≠ .sinkFin i) (hl' : ∀ m, l ≠ .sinkFatal i m)
    (hr : (s.sk i).running ≠ none) (hin : i < s.n) : Still (s.sk i) (s'.sk i) := by
  have upd : ∀ (j : Nat) (f : SinkSt M → SinkSt M), (∀ k, Still k (f k)) → Still (s.sk i) (updSink s.sk j f i) := by
    intro j f hf
    by_cases hj : i = j
    · subst hj; rw [updSink_self]; exact hf _
    · rw [updSink_ne _ _ hj]; exact .rfl' _
  have same := Still.rfl' (s.sk i)
  unfold wStep at h
  split at h
  · cases h
  cases l with
  | save m => simp only at h; split at h <;> cases h <;> exact same
  | fatal m => simp only at h; split at h <;> cases h <;> exact same
  | add =>
    simp only [addStep, beginCall] at h
    have hne : (updSink s.sk s.n (fun _ => SinkSt.fresh) i) = s.sk i := updSink_ne _ _ (by omega)
    split at h
    · cases h; exact same
    · split at h
      · cases h; dsimp only; rw [hne]; exact same
      · cases h; dsimp only [pushTask]; rw [hne]; exact same
  | remove j =>
    simp only [beginCall] at h
    split at h
    · split at h
      · cases h; exact same
      · split at h <;> cases h <;> exact same
    · cases h
  | clear =>
    simp only [beginCall] at h
    split at h
    · cases h; exact same
    · split at h <;> cases h <;> exact same
  | ret k =>
    simp only [retStep] at h
    split at h
    · cases h
    · split at h
      · split at h
        · cases h
          unfold clientDrop
          split
          · exact same
          · exact upd _ _ (fun _ => ⟨rfl, rfl, rfl, rfl⟩)
        · cases h; exact same
      · cases h
  | hold j =>
    simp only at h
    split at h
    · cases h
      exact upd _ _ (fun _ => ⟨rfl, rfl, rfl, rfl⟩)
    · cases h
  | holdFail j c => simp only at h; split at h <;> cases h; exact same
  | call j c => simp only at h; split at h <;> cases h; exact upd _ _ (fun _ => ⟨rfl, rfl, rfl, rfl⟩)
  | release j =>
    simp only at h
    split at h
    · cases h
      unfold clientDrop
      split
      · exact upd _ _ (fun _ => ⟨rfl, rfl, rfl, rfl⟩)
      · simp only [updSink_updSink]
        exact upd j (fun k => { ({ k with refs := k.refs - 1 } : SinkSt M).stop with reaping := true }) (fun _ => ⟨rfl, rfl, rfl, rfl⟩)
    · cases h
  | reap j => simp only at h; split at h <;> cases h; exact upd _ _ (fun _ => ⟨rfl, rfl, rfl, rfl⟩)
  | dtor =>
    simp only [dtorStep] at h
    split at h
    · cases h; exact same
    · split at h <;> cases h; exact same
    · split at h <;> cases h; exact same
    · split at h
      · cases h; exact same
      · split at h
        · cases h; exact same
        · cases h; exact upd _ _ (fun _ => ⟨rfl, rfl, rfl, rfl⟩)
    · split at h <;> cases h; exact upd _ _ (fun _ => ⟨rfl, rfl, rfl, rfl⟩)
    · cases h
  | work =>
    simp only [workStep] at h
    split at h
    · unfold takeTask at h
      split at h
      · cases h
      · split at h <;> cases h <;> exact same
      · cases h; exact same
      · cases h; exact same
      · split at h <;> cases h <;> exact same
      · cases h; exact same
      · cases h; exact same
    · cases h; exact upd _ _ (fun _ => ⟨rfl, rfl, rfl, rfl⟩)
    · cases h; exact same
    · cases h; exact same
    · split at h
      · cases h; exact same
      · cases h; exact upd _ _ (fun _ => ⟨rfl, rfl, rfl, rfl⟩)
    · split at h <;> cases h; exact upd _ _ (fun _ => ⟨rfl, rfl, rfl, rfl⟩)
    · split at h
      · split at h <;> cases h <;> exact same
      · split at h
        · cases h; exact same
        · cases h; exact upd _ _ (fun _ => ⟨rfl, rfl, rfl, rfl⟩)
    · split at h <;> cases h; exact upd _ _ (fun _ => ⟨rfl, rfl, rfl, rfl⟩)
    · cases h
    · cases h
  | sinkPop j =>
    simp only [sinkPop] at h
    split at h
    · next hc =>
      have hne : i ≠ j := fun e => hr (by rw [e]; exact hc.2.1)
      split at h
      · cases h
      · cases h; dsimp only; rw [updSink_ne _ _ hne]; exact same
    · cases h
  | sinkFin j =>
    have hne : i ≠ j := fun e => hl (by rw [e])
    simp only [sinkFin] at h
    split at h
    · split at h
      · cases h
      · cases h; dsimp only; rw [updSink_ne _ _ hne]; exact same
      · cases h; dsimp only; rw [updSink_ne _ _ hne]; exact same
    · cases h
  | sinkFatal j m =>
    have hne : i ≠ j := fun e => hl' m (by rw [e])
    simp only at h
    split at h
    · split at h
      · cases h; exact same
      · cases h; dsimp only [pushTask]; rw [updSink_ne _ _ hne]; exact same
    · cases h


/-! ### When the logger pointer is set -/

/-- stderr shows a fatal message. -/
def ShownFatal (s : WState M) : Prop := ∃ m, .fatal m ∈ s.err

theorem fatal_tr {s s' : WState M} (ht : Tr s s') (h : (s.wpc.inFatal = true ∨ s.wpc = .dead) ↔ ShownFatal s) :
    (s'.wpc.inFatal = true ∨ s'.wpc = .dead) ↔ ShownFatal s' := by
  cases ht with
  | send x j rest hw => unfold ShownFatal at h ⊢; rw [hw] at h; cases x <;> simpa [WPc.inFatal] using h
  | clrDrop f j r hw ha ho => unfold ShownFatal at h ⊢; rw [hw] at h; cases f <;> simpa [WPc.inFatal] using h
  | clrReap j f hw he => unfold ShownFatal at h ⊢; rw [hw] at h; cases f <;> simpa [WPc.inFatal] using h
  | clrKeep f j r hw ha ho => exact h
  | _ => first | exact h | (unfold ShownFatal at h ⊢; simp_all [pushTask, WPc.inFatal])

theorem fatal_run {ls : List (WLabel M)} {s : WState M} (h : wRun WState.start ls = some s) : (s.wpc.inFatal = true ∨ s.wpc = .dead) ↔ ShownFatal s := by
  refine wrun_induct (P := fun s => (s.wpc.inFatal = true ∨ s.wpc = .dead) ↔ ShownFatal s) (fun _ _ _ a hs => fatal_tr (tr_of_step hs).2.2 a) ls _ s ?_ h
  simp [WState.start, WPc.inFatal, ShownFatal]

/-! ### The steps -/

theorem eThrows_eq {env : TEnv M} {s : TState M} {i : Nat} {x : SItem M} (ha : s.asleep i = false) : eThrows env s i = some x ↔ Throwing env s i x := by
  unfold eThrows Throwing
  cases hr : (s.base.sk i).running with
  | none => simp
  | some y =>
    simp only
    constructor
    · intro h
      split at h
      · next hc =>
        cases h
        refine ⟨hc.2.2.1, rfl, hc.2.2.2, ha, ?_, hc.2.1⟩
        cases x with
        | msg m => exact ⟨m, Or.inl rfl⟩
        | fatal m => exact ⟨m, Or.inr rfl⟩
        | call c => cases hc.1
        | stop => cases hc.1
      · cases h
    · rintro ⟨h1, h2, h3, _, ⟨m, h4⟩, h5⟩
      cases h2
      have : x.isMessage = true := by rcases h4 with e | e <;> rw [e] <;> rfl
      rw [if_pos ⟨this, h5, h1, h3⟩]

/-- The two kinds of steps. -/
inductive ETr (env : TEnv M) (s : TState M) : WLabel M → TState M → Prop
  | plain (l : WLabel M) (b : WState M) : wStep s.base l = some b → (∀ i, l = .sinkFin i → s.asleep i = false ∧ ∀ x, ¬ Throwing env s i x) →
      (∀ i m, l = .sinkFatal i m → s.asleep i = false) → ETr env s l { s with base := b, log := s.log ++ [l] }
  | killed (i : Nat) (x : SItem M) : Throwing env s i x → env.handled = false → ETr env s (.sinkFin i) { s with ended := true }
  | sleep (i : Nat) (x : SItem M) : Throwing env s i x → env.handled = true → s.signalled = true →
      ETr env s (.sinkFin i) { s with asleep := fun j => if j = i then true else s.asleep j }
  | report (i : Nat) (x : SItem M) (b : WState M) : Throwing env s i x → env.handled = true → s.signalled = false → loggerSet s.base = true →
      wStep s.base (.sinkFatal i (env.report i x)) = some b →
      ETr env s (.sinkFin i) { s with base := b, signalled := true, log := s.log ++ [.sinkFatal i (env.report i x)] }
  | exits (i : Nat) (x : SItem M) : Throwing env s i x → env.handled = true → s.signalled = false → loggerSet s.base = false →
      ETr env s (.sinkFin i) { s with signalled := true, ended := true }

theorem ePlain_some {s s' : TState M} {l : WLabel M} (h : ePlain s l = some s') : ∃ b, wStep s.base l = some b ∧ s' = { s with base := b, log := s.log ++ [l] } := by
  unfold ePlain at h
  obtain ⟨b, hb, e⟩ := Option.map_eq_some_iff.1 h
  exact ⟨b, hb, e.symm⟩

theorem etr_of_step {env : TEnv M} {s s' : TState M} {l : WLabel M} (h : tStep env s l = some s') :
    s.ended = false ∧ s.base.ub = false ∧ s.base.wpc ≠ .dead ∧ ETr env s l s' := by
  unfold tStep at h
  split at h
  · cases h
  next hg =>
  have hg1 : s.ended = false := by cases e : s.ended <;> simp_all
  have hg2 : s.base.ub = false := by cases e : s.base.ub <;> simp_all
  have hg3 : s.base.wpc ≠ .dead := by intro e; simp [e, WPc.isDead] at hg
  refine ⟨hg1, hg2, hg3, ?_⟩
  have pl : ∀ l, (∀ i, l ≠ .sinkFin i) → (∀ i m, l ≠ .sinkFatal i m) → ePlain s l = some s' → ETr env s l s' := by
    intro l h1 h2 h
    obtain ⟨b, hb, e⟩ := ePlain_some h
    rw [e]
    exact .plain l b hb (fun i e => absurd e (h1 i)) (fun i m e => absurd e (h2 i m))
  split at h
  · next i =>
    split at h
    · cases h
    next ha =>
    have ha : s.asleep i = false := by simpa using ha
    split at h
    · next x hx =>
      have hx := (eThrows_eq ha).1 hx
      unfold eAbort at h
      split at h
      · next hh => cases h; exact .killed i x hx hh
      next hh =>
      have hh : env.handled = true := by simpa using hh
      split at h
      · next hs => cases h; exact .sleep i x hx hh hs
      next hs =>
      have hs : s.signalled = false := by simpa using hs
      split at h
      · next hl =>
        obtain ⟨b, hb, e⟩ := Option.map_eq_some_iff.1 h
        rw [← e]
        exact .report i x b hx hh hs hl hb
      · next hl => cases h; exact .exits i x hx hh hs (by simpa using hl)
    · next hx =>
      obtain ⟨b, hb, e⟩ := ePlain_some h
      rw [e]
      refine .plain _ b hb (fun j ej => ?_) (fun j m ej => by cases ej)
      cases ej
      refine ⟨ha, fun x hx' => ?_⟩
      rw [(eThrows_eq ha).2 hx'] at hx; cases hx
  · next i m =>
    split at h
    · cases h
    next ha =>
    obtain ⟨b, hb, e⟩ := ePlain_some h
    rw [e]
    exact .plain _ b hb (fun j ej => by cases ej) (fun j m ej => by cases ej; simpa using ha)
  · next h1 h2 => exact pl _ h1 h2 h

theorem wRun_one {s s' : WState M} {l : WLabel M} (h : wStep s l = some s') : wRun s [l] = some s' := by simp [wRun, h]

theorem tRun_append {env : TEnv M} {a b : List (WLabel M)} : ∀ {s s' : TState M}, tRun env s (a ++ b) = some s' → ∃ u, tRun env s a = some u ∧ tRun env u b = some s' := by
  induction a with
  | nil => intro s s' h; exact ⟨s, rfl, h⟩
  | cons l a ih =>
    intro s s' h
    rw [List.cons_append, tRun] at h
    obtain ⟨v, hv, h⟩ := Option.bind_eq_some_iff.1 h
    obtain ⟨u, hu, h⟩ := ih h
    exact ⟨u, by rw [tRun, hv]; exact hu, h⟩

theorem tRun_append' {env : TEnv M} {a b : List (WLabel M)} : ∀ {s u s' : TState M}, tRun env s a = some u → tRun env u b = some s' → tRun env s (a ++ b) = some s' := by
  induction a with
  | nil => intro s u s' h g; cases h; exact g
  | cons l a ih =>
    intro s u s' h g
    rw [tRun] at h
    obtain ⟨v, hv, h⟩ := Option.bind_eq_some_iff.1 h
    rw [List.cons_append, tRun, hv]
    exact ih h g

theorem tRun_one {env : TEnv M} {s s' : TState M} {l : WLabel M} : tRun env s [l] = some s' ↔ tStep env s l = some s' := by
  simp only [tRun]
  cases tStep env s l <;> simp

/-- The ghost log is a schedule of worker and sinks. -/
theorem base_step {env : TEnv M} {s s' : TState M} {l : WLabel M} (hb : wRun WState.start s.log = some s.base) (h : tStep env s l = some s') :
    wRun WState.start s'.log = some s'.base := by
  cases (etr_of_step h).2.2.2 with
  | plain l b h1 => exact wRun_append' hb (wRun_one h1)
  | killed => exact hb
  | sleep => exact hb
  | report i x b _ _ _ _ h1 => exact wRun_append' hb (wRun_one h1)
  | exits => exact hb

theorem base_from {env : TEnv M} {ls : List (WLabel M)} : ∀ {s s' : TState M}, wRun WState.start s.log = some s.base → tRun env s ls = some s' →
    wRun WState.start s'.log = some s'.base := by
  induction ls with
  | nil => intro s s' hb h; cases h; exact hb
  | cons l ls ih =>
    intro s s' hb h
    rw [tRun] at h
    obtain ⟨v, hv, h⟩ := Option.bind_eq_some_iff.1 h
    exact ih (base_step hb hv) h

theorem base_run {env : TEnv M} {ls : List (WLabel M)} {s : TState M} (h : tRun env TState.start ls = some s) : wRun WState.start s.log = some s.base :=
  base_from (s := TState.start) rfl h

theorem logged_append (a b : List (WLabel M)) : logged (a ++ b) = logged a ++ logged b := by
  induction a with
  | nil => rfl
  | cons l a ih => cases l <;> simp [logged, ih]

theorem logged_from {env : TEnv M} {ls : List (WLabel M)} : ∀ {s s' : TState M}, tRun env s ls = some s' → logged s'.log = logged s.log ++ logged ls := by
  induction ls with
  | nil => intro s s' h; cases h; simp [logged]
  | cons l ls ih =>
    intro s s' h
    rw [tRun] at h
    obtain ⟨v, hv, h⟩ := Option.bind_eq_some_iff.1 h
    rw [ih h, ← List.singleton_append, logged_append, ← List.append_assoc]
    congr 1
    cases (etr_of_step hv).2.2.2 with
    | plain l b h1 => simp only [logged_append]
    | killed => simp [logged]
    | sleep => simp [logged]
    | report => simp only [logged_append]; rfl
    | exits => simp [logged]

/-! ### A sink that has thrown -/

/-- The thread of sink `i` is stuck for good. -/
structure EStuck (i : Nat) (s : TState M) : Prop where
  lt : i < s.base.n
  run : ∃ x, (s.base.sk i).running = some x ∧ x ≠ .stop
  stuck : (s.base.sk i).blocked = true ∨ s.asleep i = true

theorem estuck_step {env : TEnv M} {s s' : TState M} {l : WLabel M} {i : Nat} (hi : AllInv s.base) (hk : EStuck i s) (h : tStep env s l = some s') :
    EStuck i s' ∧ (s'.base.sk i).done = (s.base.sk i).done ∧ (s'.base.sk i).blocked = (s.base.sk i).blocked ∧ s'.asleep i = s.asleep i := by
  have base : ∀ (l : WLabel M) (b : WState M), wStep s.base l = some b → l ≠ .sinkFin i → (∀ m, l ≠ .sinkFatal i m) →
      Still (s.base.sk i) (b.sk i) ∧ i < b.n := by
    intro l b hb h1 h2
    obtain ⟨x, hx, _⟩ := hk.run
    exact ⟨still_step hb h1 h2 (by rw [hx]; simp) hk.lt, Nat.lt_of_lt_of_le hk.lt (grows_run hi (wRun_one hb)).n⟩
  cases (etr_of_step h).2.2.2 with
  | plain l b h1 h2 h3 =>
    have n1 : l ≠ .sinkFin i := by
      intro e
      subst e
      rcases hk.stuck with e | e
      · rw [wStep] at h1
        split at h1
        · cases h1
        · simp [sinkFin, e] at h1
      · rw [(h2 i rfl).1] at e; cases e
    have n2 : ∀ m, l ≠ .sinkFatal i m := by
      intro m e
      subst e
      rcases hk.stuck with e | e
      · rw [wStep] at h1
        split at h1
        · cases h1
        · simp [e] at h1
      · rw [h3 i m rfl] at e; cases e
    obtain ⟨⟨a1, a2, a3, a4⟩, a5⟩ := base l b h1 n1 n2
    exact ⟨⟨a5, by simp only; rw [a1]; exact hk.run, by simp only; rw [a3]; exact hk.stuck⟩, a2, a3, rfl⟩
  | killed => exact ⟨⟨hk.lt, hk.run, hk.stuck⟩, rfl, rfl, rfl⟩
  | sleep j x h1 =>
    have hne : i ≠ j := by
      rintro rfl
      rcases hk.stuck with e | e
      · rw [h1.2.2.1] at e; cases e
      · rw [h1.2.2.2.1] at e; cases e
    exact ⟨⟨hk.lt, hk.run, by simp only [if_neg hne]; exact hk.stuck⟩, rfl, rfl, by simp only [if_neg hne]⟩
  | report j x b h1 _ _ _ h2 =>
    have hne : i ≠ j := by
      rintro rfl
      rcases hk.stuck with e | e
      · rw [h1.2.2.1] at e; cases e
      · rw [h1.2.2.2.1] at e; cases e
    obtain ⟨⟨a1, a2, a3, a4⟩, a5⟩ := base _ b h2 (by simp) (fun m e => by cases e; exact hne rfl)
    exact ⟨⟨a5, by simp only; rw [a1]; exact hk.run, by simp only; rw [a3]; exact hk.stuck⟩, a2, a3, rfl⟩
  | exits => exact ⟨⟨hk.lt, hk.run, hk.stuck⟩, rfl, rfl, rfl⟩

theorem estuck_run {env : TEnv M} {ls : List (WLabel M)} {i : Nat} : ∀ {s s' : TState M}, AllInv s.base → EStuck i s → tRun env s ls = some s' →
    EStuck i s' ∧ (s'.base.sk i).done = (s.base.sk i).done := by
  induction ls with
  | nil => intro s s' _ hk h; cases h; exact ⟨hk, rfl⟩
  | cons l ls ih =>
    intro s s' hi hk h
    rw [tRun] at h
    obtain ⟨v, hv, h⟩ := Option.bind_eq_some_iff.1 h
    obtain ⟨h1, h2, _⟩ := estuck_step hi hk hv
    have hi' : AllInv v.base := by
      cases (etr_of_step hv).2.2.2 with
      | plain l b g1 => exact allInv_step hi g1
      | killed => exact hi
      | sleep => exact hi
      | report _ _ _ _ _ _ _ g1 => exact allInv_step hi g1
      | exits => exact hi
    obtain ⟨h3, h4⟩ := ih hi' h1 h
    exact ⟨h3, h4.trans h2⟩

/-- A sink that is stuck, and that the worker cannot get past. -/
structure EHangs (i : Nat) (s : TState M) : Prop where
  inv : AllInv s.base
  stuck : EStuck i s
  hangs : Hangs (s.base.sk i).blocked i s.base
  sig : s.signalled = true
  alive : s.ended = false

theorem ehangs_base {b : Bool} {i : Nat} {s s' : WState M} {l : WLabel M} (hi : AllInv s) (h : Hangs b i s) (hs : wStep s l = some s') (hl : l ≠ .hold i)
    (hst : Still (s.sk i) (s'.sk i)) : Hangs b i s' := by
  rcases hangs_tr (tr_of_step hs).2.2 hi h with h1 | h1 | ⟨h1, h2⟩
  · exact h1
  · exfalso
    have := refs_step hs (i := i) hl h.lt
    rw [h.refs] at this
    omega
  · exfalso
    rcases h2 with ⟨h2, h3⟩ | h2
    · rw [hst.1] at h3; exact h2 h3
    · rw [hst.2.2.1, h.blocked, h1] at h2; cases h2

theorem ehangs_step {env : TEnv M} {s s' : TState M} {l : WLabel M} {i : Nat} (hh : env.handled = true) (hk : EHangs i s) (hl : l ≠ .hold i)
    (h : tStep env s l = some s') : EHangs i s' := by
  obtain ⟨h1, h2, h3, h4⟩ := estuck_step hk.inv hk.stuck h
  have still : ∀ (l : WLabel M) (b : WState M), wStep s.base l = some b → (b.sk i).running = (s.base.sk i).running → (b.sk i).done = (s.base.sk i).done →
      (b.sk i).blocked = (s.base.sk i).blocked → (b.sk i).exited = (s.base.sk i).exited → l ≠ .hold i → Hangs (b.sk i).blocked i b := by
    intro l b hb a1 a2 a3 a4 hl
    rw [a3]
    exact ehangs_base hk.inv hk.hangs hb hl ⟨a1, a2, a3, a4⟩
  have base : ∀ (l : WLabel M) (b : WState M), wStep s.base l = some b → l ≠ .sinkFin i → (∀ m, l ≠ .sinkFatal i m) → l ≠ .hold i → Hangs (b.sk i).blocked i b := by
    intro l b hb n1 n2 hl
    obtain ⟨x, hx, _⟩ := hk.stuck.run
    obtain ⟨a1, a2, a3, a4⟩ := still_step hb n1 n2 (by rw [hx]; simp) hk.stuck.lt
    exact still l b hb a1 a2 a3 a4 hl
  cases (etr_of_step h).2.2.2 with
  | plain l b hb g2 g3 =>
    refine ⟨allInv_step hk.inv hb, h1, base l b hb ?_ ?_ hl, hk.sig, hk.alive⟩
    · intro e
      subst e
      rcases hk.stuck.stuck with e | e
      · rw [wStep] at hb
        split at hb
        · cases hb
        · simp [sinkFin, e] at hb
      · rw [(g2 i rfl).1] at e; cases e
    · intro m e
      subst e
      rcases hk.stuck.stuck with e | e
      · rw [wStep] at hb
        split at hb
        · cases hb
        · simp [e] at hb
      · rw [g3 i m rfl] at e; cases e
  | killed j x _ hh' => rw [hh] at hh'; cases hh'
  | sleep => exact ⟨hk.inv, h1, hk.hangs, hk.sig, hk.alive⟩
  | report _ _ _ _ _ hs => rw [hk.sig] at hs; cases hs
  | exits _ _ _ _ hs => rw [hk.sig] at hs; cases hs

theorem ehangs_run {env : TEnv M} {ls : List (WLabel M)} {i : Nat} (hh : env.handled = true) : ∀ {s s' : TState M}, EHangs i s → .hold i ∉ ls →
    tRun env s ls = some s' → EHangs i s' := by
  induction ls with
  | nil => intro s s' hk _ h; cases h; exact hk
  | cons l ls ih =>
    intro s s' hk hl h
    rw [tRun] at h
    obtain ⟨v, hv, h⟩ := Option.bind_eq_some_iff.1 h
    exact ih (ehangs_step hh hk (fun e => hl (by simp [e])) hv) (fun hm => hl (List.mem_cons_of_mem _ hm)) h

/-! ### Whether a callback has thrown before -/

theorem threw_snoc {env : TEnv M} {ls : List (WLabel M)} {l : WLabel M} {s : TState M} (h : tRun env TState.start ls = some s) :
    Threw env (ls ++ [l]) ↔ Threw env ls ∨ ∃ i x, l = .sinkFin i ∧ Throwing env s i x := by
  constructor
  · rintro ⟨l1, j, l2, u, x, e, h1, h2⟩
    rcases List.eq_nil_or_concat l2 with e2 | ⟨l2', a, e2⟩
    · subst e2
      obtain ⟨e3, e4⟩ := List.append_inj' e rfl
      simp only [List.cons.injEq, and_true] at e4
      subst e3
      rw [h] at h1; cases h1
      exact Or.inr ⟨j, x, e4, h2⟩
    · subst e2
      rw [List.concat_eq_append, ← List.cons_append, ← List.append_assoc] at e
      obtain ⟨e3, e4⟩ := List.append_inj' e rfl
      exact Or.inl ⟨l1, j, l2', u, x, e3, h1, h2⟩
  · rintro (⟨l1, j, l2, u, x, e, h1, h2⟩ | ⟨i, x, e, h2⟩)
    · exact ⟨l1, j, l2 ++ [l], u, x, by rw [e]; simp, h1, h2⟩
    · exact ⟨ls, i, [], s, x, by rw [e], h, h2⟩

theorem signalled_iff {env : TEnv M} (hh : env.handled = true) (ls : List (WLabel M)) : ∀ {s : TState M}, tRun env TState.start ls = some s →
    (s.signalled = true ↔ Threw env ls) := by
  induction ls using List.reverseRecOn with
  | nil =>
    intro s h; cases h
    constructor
    · intro e; cases e
    · rintro ⟨l1, j, l2, u, x, e, _⟩; simp at e
  | append_singleton ls l ih =>
    intro s h
    obtain ⟨u, hu, h⟩ := tRun_append h
    rw [tRun_one] at h
    have ih := ih hu
    rw [threw_snoc hu, ← ih]
    cases (etr_of_step h).2.2.2 with
    | plain l b h1 h2 =>
      constructor
      · exact Or.inl
      · rintro (h | ⟨i, x, e, hx⟩)
        · exact h
        · exact absurd hx ((h2 i e).2 x)
    | killed i x hx h0 => rw [hh] at h0; cases h0
    | sleep i x hx _ hs => exact ⟨fun _ => Or.inl hs, fun _ => hs⟩
    | report i x b hx => exact ⟨fun _ => Or.inr ⟨i, x, rfl, hx⟩, fun _ => rfl⟩
    | exits i x hx => exact ⟨fun _ => Or.inr ⟨i, x, rfl, hx⟩, fun _ => rfl⟩

end G3.Props
