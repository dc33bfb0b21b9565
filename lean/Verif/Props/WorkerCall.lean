import Verif.Props.Worker
/-
Calls on a sink through its handle: C18 (the futures of such calls are in `Verif.Props.Future`).
-/
namespace G3.Props
open G3 G3.Spec

variable {M : Type}

/-- The calls among the tasks of a sink. -/
def callOf : SItem M → Option Nat
  | .call c => some c
  | _ => none

/-- The calls made on sink i. -/
def calledOn (i : Nat) (ls : List (WLabel M)) : List Nat :=
  ls.filterMap fun l => match l with
    | .call j c => if j = i then some c else none
    | _ => none

/-- The calls made through the handle of a sink that no longer existed. -/
def refusedCalls (ls : List (WLabel M)) : List Nat :=
  ls.filterMap fun l => match l with
    | .holdFail _ c => some c
    | _ => none

theorem full_push {k : SinkSt M} {x : SItem M} (h : LInv (k.push x)) : full (k.push x) = full k ++ [x] := by
  have he : k.exited = false := by
    cases he : k.exited with
    | false => rfl
    | true => have := (h.exit he).1; simp [SinkSt.push] at this
  simp [full, SinkSt.push, he]

theorem full_stop {k k' : SinkSt M} (h : LInv k') (h1 : k'.q = k.q ++ [.stop]) (h2 : k'.done = k.done) (h3 : k'.running = k.running)
    (h4 : k'.exited = k.exited) : full k' = full k ++ [.stop] := by
  have he : k'.exited = false := by
    cases he : k'.exited with
    | false => rfl
    | true => have := (h.exit he).1; rw [h1] at this; simp at this
  simp [full, h1, h2, h3, ← h4, he]

theorem full_pop {k : SinkSt M} {x : SItem M} {r : List (SItem M)} (hr : k.running = none) (hq : k.q = x :: r) :
    full { k with q := r, running := some x } = full k := by
  simp [full, hr, hq]

theorem full_fin {k : SinkSt M} {x : SItem M} (hr : k.running = some x) : full { k with running := none, done := k.done ++ [x] } = full k := by
  simp [full, hr]

theorem full_finStop {k : SinkSt M} (h : LInv k) (h' : LInv { k with running := none, exited := true }) (hr : k.running = some .stop) :
    full { k with running := none, exited := true } = full k := by
  have he : k.exited = false := by
    cases he : k.exited with
    | false => rfl
    | true => have := (h.exit he).2; rw [hr] at this; cases this
  have hq : k.q = [] := (h'.exit rfl).1
  simp [full, hr, he, hq]

/-- What a step adds to everything ever sent to sink i. -/
def Adds (i : Nat) (l : WLabel M) (s s' : WState M) : Prop :=
  ∃ t, full (s'.sk i) = full (s.sk i) ++ t ∧ t.filterMap callOf = calledOn i [l] ∧ ∀ c, l = .call i c → t = [.call c]

theorem adds_same {i : Nat} {l : WLabel M} {s s' : WState M} (h : full (s'.sk i) = full (s.sk i)) (hl : ∀ c, l ≠ .call i c) : Adds i l s s' := by
  refine ⟨[], by simp [h], ?_, fun c e => absurd e (hl c)⟩
  cases l with
  | call j c =>
    have hne : j ≠ i := by intro e; subst e; exact hl c rfl
    simp [calledOn, hne]
  | _ => rfl

theorem adds_upd {i j : Nat} {l : WLabel M} {s s' : WState M} (f : SinkSt M → SinkSt M) (x : Option (SItem M)) (h : s'.sk = updSink s.sk j f)
    (hf : full (f (s.sk j)) = full (s.sk j) ++ x.toList) (hx : x.bind callOf = none) (hl : ∀ a c, l ≠ .call a c) : Adds i l s s' := by
  by_cases hj : i = j
  · subst hj
    refine ⟨x.toList, by rw [h, updSink_self]; exact hf, ?_, fun c e => absurd e (hl i c)⟩
    have : calledOn i [l] = [] := by cases l <;> first | rfl | exact absurd rfl (hl _ _)
    rw [this]
    cases x with
    | none => rfl
    | some y =>
      have : callOf y = none := hx
      simp [this]
  · exact adds_same (by rw [h, updSink_ne _ _ hj]) (fun c => hl i c)

theorem adds_step {s s' : WState M} {l : WLabel M} {i : Nat} (hi : AllInv s) (h : wStep s l = some s') : Adds i l s s' := by
  have hi' := allInv_step hi h
  have same : s'.sk = s.sk → (∀ c, l ≠ .call i c) → Adds i l s s' := fun e => adds_same (by rw [e])
  have loc := hi'.w.sinks.loc
  have stops : ∀ (j : Nat) (f : SinkSt M → SinkSt M), s'.sk = updSink s.sk j f → (∀ a c, l ≠ .call a c) → (∀ k, (f k).q = k.q ++ [.stop]) →
      (∀ k, (f k).done = k.done) → (∀ k, (f k).running = k.running) → (∀ k, (f k).exited = k.exited) → Adds i l s s' := by
    intro j f hs hl h1 h2 h3 h4
    refine adds_upd f (some .stop) hs ?_ rfl hl
    have hk := loc j
    rw [hs, updSink_self] at hk
    exact full_stop hk (h1 _) (h2 _) (h3 _) (h4 _)
  have quiet : ∀ (j : Nat) (f : SinkSt M → SinkSt M), s'.sk = updSink s.sk j f → (∀ a c, l ≠ .call a c) → (full (f (s.sk j)) = full (s.sk j)) →
      Adds i l s s' := fun j f hs hl hf => adds_upd f none hs (by simpa using hf) rfl hl
  unfold wStep at h
  split at h
  · cases h
  cases l with
  | save m => simp only at h; split at h <;> cases h <;> exact same rfl (by simp)
  | fatal m => simp only at h; split at h <;> cases h <;> exact same rfl (by simp)
  | add =>
    simp only [addStep, beginCall] at h
    have hne : (updSink s.sk s.n (fun _ => SinkSt.fresh) i) = s.sk i := by
      by_cases e : i = s.n
      · subst e; rw [updSink_self, hi.w.sinks.fresh _ (Nat.le_refl _)]
      · exact updSink_ne _ _ e
    split at h
    · cases h; exact same rfl (by simp)
    · split at h
      · cases h; exact adds_same (by dsimp only; rw [hne]) (by simp)
      · cases h; exact adds_same (by dsimp only [pushTask]; rw [hne]) (by simp)
  | remove j =>
    simp only [beginCall] at h
    split at h
    · split at h
      · cases h; exact same rfl (by simp)
      · split at h <;> cases h <;> exact same rfl (by simp)
    · cases h
  | clear =>
    simp only [beginCall] at h
    split at h
    · cases h; exact same rfl (by simp)
    · split at h <;> cases h <;> exact same rfl (by simp)
  | ret k =>
    simp only [retStep] at h
    split at h
    · cases h
    · split at h
      · split at h
        · unfold clientDrop at h
          split at h
          · cases h; exact same rfl (by simp)
          · cases h
            exact stops _ (fun k => { k.stop with reaping := true }) rfl (by simp) (fun _ => rfl) (fun _ => rfl) (fun _ => rfl) (fun _ => rfl)
        · cases h; exact same rfl (by simp)
      · cases h
  | hold j =>
    simp only at h
    split at h
    · cases h
      exact quiet j (fun k => { k with refs := k.refs + 1 }) rfl (by simp) rfl
    · cases h
  | holdFail j c => simp only at h; split at h <;> cases h; exact same rfl (by simp)
  | call j c =>
    simp only at h
    split at h
    · cases h
      by_cases hj : i = j
      · subst hj
        refine ⟨[.call c], ?_, by simp [calledOn, callOf], fun d e => by cases e; rfl⟩
        have hk := loc i
        dsimp only at hk ⊢
        rw [updSink_self] at hk ⊢
        exact full_push hk
      · exact adds_same (by dsimp only; rw [updSink_ne _ _ hj]) (fun d e => by cases e; exact hj rfl)
    · cases h
  | release j =>
    simp only at h
    split at h
    · unfold clientDrop at h
      split at h
      · cases h
        exact quiet j (fun k => { k with refs := k.refs - 1 }) rfl (by simp) rfl
      · cases h
        exact stops j (fun k => { ({ k with refs := k.refs - 1 } : SinkSt M).stop with reaping := true }) (by dsimp only; rw [updSink_updSink])
          (by simp) (fun _ => rfl) (fun _ => rfl) (fun _ => rfl) (fun _ => rfl)
    · cases h
  | reap j =>
    simp only at h; split at h <;> cases h
    exact quiet j (fun k => { k with destroyed := true, reaping := false }) rfl (by simp) rfl
  | dtor =>
    simp only [dtorStep] at h
    split at h
    · cases h; exact same rfl (by simp)
    · split at h <;> cases h; exact same rfl (by simp)
    · split at h <;> cases h; exact same rfl (by simp)
    · split at h
      · cases h; exact same rfl (by simp)
      · split at h
        · cases h; exact same rfl (by simp)
        · cases h; exact stops _ (·.stop) rfl (by simp) (fun _ => rfl) (fun _ => rfl) (fun _ => rfl) (fun _ => rfl)
    · split at h <;> cases h; exact quiet _ (fun k => { k with destroyed := true }) rfl (by simp) rfl
    · cases h
  | work =>
    simp only [workStep] at h
    split at h
    · unfold takeTask at h
      split at h
      · cases h
      · split at h <;> cases h <;> exact same rfl (by simp)
      · cases h; exact same rfl (by simp)
      · cases h; exact same rfl (by simp)
      · split at h <;> cases h <;> exact same rfl (by simp)
      · cases h; exact same rfl (by simp)
      · cases h; exact same rfl (by simp)
    · next x j rest hpc =>
      cases h
      have ht := hi.w.book.task
      rw [hpc] at ht
      refine adds_upd (·.push x) (some x) (j := j) rfl ?_ ?_ (by simp)
      · have hk := loc j
        dsimp only at hk
        rw [updSink_self] at hk
        exact full_push hk
      · cases x with
        | call c => exact ht.elim
        | _ => rfl
    · cases h; exact same rfl (by simp)
    · cases h; exact same rfl (by simp)
    · split at h
      · cases h; exact same rfl (by simp)
      · cases h; exact stops _ (·.stop) rfl (by simp) (fun _ => rfl) (fun _ => rfl) (fun _ => rfl) (fun _ => rfl)
    · split at h <;> cases h; exact quiet _ (fun k => { k with destroyed := true }) rfl (by simp) rfl
    · split at h
      · split at h <;> cases h <;> exact same rfl (by simp)
      · split at h
        · cases h; exact same rfl (by simp)
        · cases h; exact stops _ (·.stop) rfl (by simp) (fun _ => rfl) (fun _ => rfl) (fun _ => rfl) (fun _ => rfl)
    · split at h <;> cases h; exact quiet _ (fun k => { k with destroyed := true }) rfl (by simp) rfl
    · cases h
    · cases h
  | sinkPop j =>
    simp only [sinkPop] at h
    split at h
    · next hc =>
      split at h
      · cases h
      · next x r hq =>
        cases h
        exact quiet j (fun k => { k with q := r, running := some x }) rfl (by simp) (full_pop hc.2.1 hq)
    · cases h
  | sinkFin j =>
    simp only [sinkFin] at h
    split at h
    · split at h
      · cases h
      · next hr =>
        cases h
        refine quiet j (fun k => { k with running := none, exited := true }) rfl (by simp) ?_
        have hk := loc j
        dsimp only at hk
        rw [updSink_self] at hk
        exact full_finStop (hi.w.sinks.loc j) hk hr
      · next x hr hx =>
        cases h
        exact quiet j (fun k => { k with running := none, done := k.done ++ [x] }) rfl (by simp) (full_fin hx)
    · cases h
  | sinkFatal j m =>
    simp only at h
    split at h
    · split at h
      · cases h; exact same rfl (by simp)
      · cases h; exact quiet j (fun k => { k with blocked := true }) rfl (by simp) rfl
    · cases h

theorem calledOn_append (i : Nat) (a b : List (WLabel M)) : calledOn i (a ++ b) = calledOn i a ++ calledOn i b := by
  unfold calledOn; rw [List.filterMap_append]

theorem adds_run {i : Nat} {ls : List (WLabel M)} : ∀ {s s' : WState M}, AllInv s → wRun s ls = some s' →
    ∃ t, full (s'.sk i) = full (s.sk i) ++ t ∧ t.filterMap callOf = calledOn i ls := by
  induction ls with
  | nil => intro s s' _ hr; cases hr; exact ⟨[], by simp, rfl⟩
  | cons l ls ih =>
    intro s s' hi hr
    simp only [wRun] at hr
    cases hs : wStep s l with
    | none => rw [hs] at hr; cases hr
    | some u =>
      rw [hs] at hr
      obtain ⟨t, h1, h2, _⟩ := adds_step (i := i) hi hs
      obtain ⟨t', h1', h2'⟩ := ih (allInv_step hi hs) hr
      refine ⟨t ++ t', by rw [h1', h1, List.append_assoc], ?_⟩
      rw [List.filterMap_append, h2, h2', ← calledOn_append]; rfl

theorem full_calls {ls : List (WLabel M)} {s : WState M} (h : wRun WState.start ls = some s) (i : Nat) :
    (full (s.sk i)).filterMap callOf = calledOn i ls := by
  obtain ⟨t, h1, h2⟩ := adds_run (i := i) allInv_start h
  rw [h1, ← h2]; rfl

theorem done_full (k : SinkSt M) : k.done <+: full k := by
  unfold full; simp only [List.append_assoc]; exact List.prefix_append _ _

/-- C18: the calls executed on the thread of a sink are, at every moment, an initial part of the calls made on it, in the order in which
they were made; each one is executed at most once. -/
theorem C18_calls_prefix {ls : List (WLabel M)} {s : WState M} (h : wRun WState.start ls = some s) (i : Nat) :
    (s.sk i).done.filterMap callOf <+: calledOn i ls := by
  rw [← full_calls h i]
  exact (done_full _).filterMap _

/-- C18: all of them have been executed when the sink has nothing more to do, at the latest when it is destroyed. -/
theorem C18_calls_all {ls : List (WLabel M)} {s : WState M} (h : wRun WState.start ls = some s) (i : Nat)
    (hd : (s.sk i).destroyed = true ∨ ((s.sk i).q = [] ∧ (s.sk i).running = none)) : (s.sk i).done.filterMap callOf = calledOn i ls := by
  have hl := (allInv_run h).w.sinks.loc i
  have hq : (s.sk i).q = [] ∧ (s.sk i).running = none := by
    rcases hd with hd | hd
    · exact hl.exit (hl.des hd)
    · exact hd
  rw [← full_calls h i]
  unfold full
  rw [hq.1, hq.2]
  cases (s.sk i).exited <;> simp [callOf]

theorem prefix_cases {α} {d x r : List α} {c : α} (h : d <+: x ++ c :: r) : d <+: x ∨ ∃ t, d = x ++ c :: t := by
  rcases Nat.lt_or_ge x.length d.length with hl | hl
  · right
    have hx : x <+: d := List.prefix_of_prefix_length_le (List.prefix_append _ _) h (Nat.le_of_lt hl)
    obtain ⟨t, rfl⟩ := hx
    rw [List.prefix_append_right_inj] at h
    cases t with
    | nil => simp at hl
    | cons y t =>
      have := List.cons_prefix_cons.1 h
      exact ⟨t, by rw [this.1]⟩
  · exact Or.inl (List.prefix_of_prefix_length_le h (List.prefix_append _ _) hl)

/-- Everything that the requests completely served give to a sink has been sent to it. -/
theorem sent_completed {ls : List (WLabel M)} {s : WState M} (h : wRun WState.start ls = some s) (i : Nat) :
    gets i ((handed 0 0 ls).take s.completed) <+: sentMsgs (s.sk i) := by
  have hi := allInv_run h
  have hg := hi.w.deliver.got i
  have e : (handed 0 0 ls).take s.completed = reqs s s.completed := by rw [← sub_handed h, reqs, List.map_take]
  rw [e]
  have hm : ∀ p, reqs s (s.completed + p) = reqs s s.completed ++ ((s.sub.drop s.completed).take p).map req := by
    intro p; rw [reqs, List.take_add, List.map_append]; rfl
  by_cases hp : pend i s.wpc = []
  · rw [hp, List.append_nil] at hg
    rw [hg, started, hm]
    exact gets_mono i _ _
  · cases hw : s.wpc with
    | sending x rest =>
      have hnf := noFinal_reqs (hi.w.book.notFinal (by rw [hw]; simp))
      have hst : started s = s.completed + 1 := by rw [started, hw]; rfl
      have hlen : (pend i s.wpc).length ≠ 0 := fun e => hp (List.length_eq_zero_iff.1 e)
      rw [hst] at hg
      cases ht : s.sub[s.completed]? with
      | none =>
        have := hi.w.book.le
        rw [hst] at this
        rw [List.getElem?_eq_none_iff] at ht
        omega
      | some t =>
        rw [reqs_succ ht, gets_snoc i _ _ hnf] at hg
        have hmem : i ∈ rest := by
          rw [hw] at hp
          by_contra hc
          exact hp (by simp [pend, hc])
        have hatt : attached i (reqs s s.completed) = true := by
          have := hi.w.deliver.att
          simp only [attRel, hw] at this
          exact (this i).1 ((hi.w.sinks.rest x rest hw).1 i hmem)
        have htask := hi.w.book.task
        rw [hw, ht] at htask
        have hl : (if attached i (reqs s s.completed) then (req t).gives else []).length = (pend i s.wpc).length := by
          rw [if_pos hatt, hw]
          simp only [pend, hmem, if_true]
          cases x with
          | msg m => cases htask; rfl
          | fatal m => cases htask; rfl
          | call c => exact htask.elim
          | stop => exact htask.elim
        have := congrArg List.length hg
        simp only [List.length_append] at this
        refine List.prefix_of_prefix_length_le ?_ (List.prefix_append (sentMsgs (s.sk i)) (pend i s.wpc)) (by omega)
        rw [hg]; exact List.prefix_append _ _
    | _ => rw [hw] at hp; exact absurd rfl hp

/-- C18: a call runs after everything that was sent to the sink before it was made, and before everything sent later. What was sent before
includes all that the requests completely served by then give to the sink, and nothing but what the requests received by then give
to it. -/
theorem C18_calls_order {a b : List (WLabel M)} {u s : WState M} {i c : Nat} (hu : wRun WState.start a = some u)
    (hs : wRun u (.call i c :: b) = some s) :
    ∃ before : List (SItem M), before.filterMap callOf = calledOn i a ∧
      gets i ((handed 0 0 a).take u.completed) <+: before.filterMap gotOf ∧ before.filterMap gotOf <+: gets i (handed 0 0 a) ∧
      ((s.sk i).done <+: before ∨ ∃ later, (s.sk i).done = before ++ .call c :: later) := by
  have hi := allInv_run hu
  refine ⟨full (u.sk i), full_calls hu i, ?_, ?_, ?_⟩
  · exact sent_completed hu i
  · exact sent_prefix hu i
  · have hs' := hs
    simp only [wRun] at hs'
    cases hst : wStep u (.call i c) with
    | none => rw [hst] at hs'; cases hs'
    | some v =>
      rw [hst] at hs'
      obtain ⟨t, h1, _, h3⟩ := adds_step (i := i) hi hst
      rw [h3 c rfl] at h1
      obtain ⟨t', h1', _⟩ := adds_run (i := i) (allInv_step hi hst) hs'
      have := done_full (s.sk i)
      rw [h1', h1, List.append_assoc] at this
      exact prefix_cases this

theorem failed_step {s s' : WState M} {l : WLabel M} (h : wStep s l = some s') : s'.failed = s.failed ++ refusedCalls [l] := by
  unfold wStep at h
  split at h
  · cases h
  cases l with
  | holdFail i c => simp only at h; split at h <;> cases h; rfl
  | _ =>
    simp only [refusedCalls, List.filterMap_cons, List.filterMap_nil, List.append_nil]
    simp only [addStep, beginCall, retStep, clientDrop, dtorStep, workStep, takeTask, sinkPop, sinkFin, pushTask] at h
    repeat' (split at h)
    all_goals first
      | (cases h; rfl)
      | cases h

/-- C18: the calls that end with `bad_weak_ptr` are those made when nobody owned the sink any more. -/
theorem C18_refused {ls : List (WLabel M)} {s : WState M} (h : wRun WState.start ls = some s) : s.failed = refusedCalls ls := by
  have main : ∀ (l : List (WLabel M)) (u v : WState M), wRun u l = some v → v.failed = u.failed ++ refusedCalls l := by
    intro l
    induction l with
    | nil => intro u v hr; cases hr; simp [refusedCalls]
    | cons a l ih =>
      intro u v hr
      simp only [wRun] at hr
      cases hs : wStep u a with
      | none => rw [hs] at hr; cases hr
      | some w =>
        rw [hs] at hr
        rw [ih w v hr, failed_step hs, List.append_assoc]
        unfold refusedCalls
        rw [← List.filterMap_append]; rfl
  simpa [WState.start] using main ls _ _ h

/-- C18: as long as the destruction of the sink has not begun a call gets through to it; afterwards it is refused and changes nothing
else. -/
theorem C18_refused_iff {ls : List (WLabel M)} {s : WState M} (h : wRun WState.start ls = some s) {i : Nat} (hn : i < s.n) (hu : s.ub = false)
    (hd : s.wpc ≠ .dead) :
    ((s.sk i).stopSent = false → (wStep s (.hold i)).isSome ∧ ∀ c, wStep s (.holdFail i c) = none) ∧
    ((s.sk i).stopSent = true → wStep s (.hold i) = none ∧ ∀ c, wStep s (.call i c) = none ∧ wStep s (.holdFail i c) = some { s with failed := s.failed ++ [c] }) := by
  have hi := allInv_run h
  have hg : ¬ (s.ub = true ∨ s.wpc.isDead = true) := by
    rw [hu]
    cases hw : s.wpc <;> simp [WPc.isDead]
    exact hd hw
  have ho := hi.w.sinks.own i hn
  constructor
  · intro hs
    rw [hs] at ho
    simp only [Bool.not_false] at ho
    constructor
    · simp [wStep, hg, hn, ho]
    · intro c; simp [wStep, hg, ho]
  · intro hs
    rw [hs] at ho
    simp only [Bool.not_true] at ho
    refine ⟨by simp [wStep, hg, ho], fun c => ⟨?_, by simp [wStep, hg, hn, ho]⟩⟩
    have : ¬ 0 < (s.sk i).refs := by
      intro hr
      have := (owned_iff (s := s) (i := i)).2 (Or.inl hr)
      rw [ho] at this; cases this
    simp [wStep, hg, this]

/-- C18: once the destruction of a sink has begun it executes no call made later. -/
theorem C18_removed {a b : List (WLabel M)} {u s : WState M} {i : Nat} (hu : wRun WState.start a = some u) (hr : wRun u b = some s)
    (hd : (u.sk i).stopSent = true) : (s.sk i).stopSent = true ∧ calledOn i (a ++ b) = calledOn i a := by
  have hi := allInv_run hu
  have hstop : ∀ {v : WState M}, AllInv v → ((v.sk i).stopSent = true ↔ .stop ∈ full (v.sk i)) := by
    intro v hv
    obtain ⟨pay, hp, hf⟩ := (hv.w.sinks.loc i).shape
    rw [hf]
    cases (v.sk i).stopSent <;> simp [hp]
  rw [calledOn_append]
  suffices hmain : ∀ (l : List (WLabel M)) (v w : WState M), AllInv v → (v.sk i).stopSent = true → wRun v l = some w →
      (w.sk i).stopSent = true ∧ calledOn i l = [] by
    obtain ⟨h1, h2⟩ := hmain b u s hi hd hr
    exact ⟨h1, by rw [h2, List.append_nil]⟩
  intro l
  induction l with
  | nil => intro v w _ hv hr; cases hr; exact ⟨hv, rfl⟩
  | cons x l ih =>
    intro v w hv hs hr
    simp only [wRun] at hr
    cases hst : wStep v x with
    | none => rw [hst] at hr; cases hr
    | some y =>
      rw [hst] at hr
      obtain ⟨t, h1, h2, _⟩ := adds_step (i := i) hv hst
      have hy := allInv_step hv hst
      have hsy : (y.sk i).stopSent = true := (hstop hy).2 (by rw [h1]; exact List.mem_append_left _ ((hstop hv).1 hs))
      obtain ⟨h3, h4⟩ := ih y w hy hsy hr
      refine ⟨h3, ?_⟩
      have : calledOn i (x :: l) = calledOn i [x] ++ calledOn i l := calledOn_append i [x] l
      rw [this, h4, List.append_nil, ← h2]
      obtain ⟨p1, hp1, hf1⟩ := (hv.w.sinks.loc i).shape
      obtain ⟨p2, hp2, hf2⟩ := (hy.w.sinks.loc i).shape
      rw [hs, if_pos rfl] at hf1
      rw [hsy, if_pos rfl, h1, hf1, List.append_assoc] at hf2
      have ht : t = [] := by
        rcases List.eq_nil_or_concat t with rfl | ⟨t0, z, rfl⟩
        · rfl
        · exfalso
          have e2 := congrArg List.dropLast hf2
          simp only [List.concat_eq_append, ← List.append_assoc, List.dropLast_concat] at e2
          exact hp2 (by rw [← e2]; simp)
      rw [ht]; rfl

/-- What C18 does not promise: a message logged before a call by the same thread may reach the sink after the call, because messages take
the way through the worker's queue. -/
theorem C18_log_then_call : ∃ (ls : List (WLabel Nat)) (s : WState Nat), wRun WState.start ls = some s ∧
    ls.filter (fun l => decide (l = .save 1 ∨ l = .call 0 7)) = [.save 1, .call 0 7] ∧ (s.sk 0).done = [.call 7, .msg 1] := by
  refine ⟨[.add, .work, .ret 0, .save 1, .hold 0, .call 0 7, .work, .work, .work, .sinkPop 0, .sinkFin 0, .sinkPop 0, .sinkFin 0], _, rfl, by decide, rfl⟩

/-- The theorems apply: message, call, message on one sink, then its removal and a refused call. -/
example : ∃ s, wRun WState.start ([.add, .work, .ret 0, .save 1, .work, .work, .work, .hold 0, .call 0 7, .release 0, .save 2, .work, .work, .work, .remove 0,
    .work, .work, .sinkPop 0, .sinkFin 0, .sinkPop 0, .sinkFin 0, .sinkPop 0, .sinkFin 0, .sinkPop 0, .sinkFin 0, .work, .ret 1, .holdFail 0 8] :
    List (WLabel Nat)) = some s ∧ (s.sk 0).done = [.msg 1, .call 7, .msg 2] ∧ (s.sk 0).destroyed = true ∧ s.failed = [8] := ⟨_, rfl, rfl, rfl, rfl⟩

end G3.Props
