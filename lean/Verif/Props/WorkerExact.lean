import Verif.Spec.WorkerExact
import Verif.Props.Worker
import Mathlib.Tactic.ByContra
/-
C03, C04, C05, C07 without restriction: what each sink has processed when the call returns or the process ends, also if a client keeps it alive.
-/
namespace G3.Props
open G3 G3.Spec

variable {M : Type}

theorem messagesIn_eq (l : List (SItem M)) : messagesIn l = l.filterMap gotOf := by
  induction l with
  | nil => rfl
  | cons x l ih => cases x <;> simp [messagesIn, List.filterMap_cons, gotOf, ih]

theorem sent_split (k : SinkSt M) : sentMsgs k = received k ++ stillAt k := by
  unfold sentMsgs full received stillAt
  rw [messagesIn_eq, messagesIn_eq]
  simp only [List.append_assoc, List.filterMap_append]
  cases k.exited <;> simp [gotOf]

/-! ### The thread of a sink goes on -/

/-- A sink whose thread is not waiting for the end of the process works off what it has, whatever the others do not do. -/
theorem sink_goes_on {i : Nat} : ∀ (n : Nat) {s : WState M}, AllInv s → s.ub = false → s.wpc ≠ .dead → i < s.n → (s.sk i).blocked = false →
    2 * (s.sk i).q.length + (s.sk i).running.toList.length = n →
    ∃ l s', (∀ x ∈ l, stepOfSink i x) ∧ wRun s l = some s' ∧ sentMsgs (s'.sk i) = sentMsgs (s.sk i) ∧ (s'.sk i).q = [] ∧ (s'.sk i).running = none := by
  intro n
  induction n using Nat.strongRecOn with
  | ind n ih =>
    intro s hi hu hd hn hb hm
    have hd' : s.wpc.isDead = false := by cases hw : s.wpc <;> first | rfl | exact absurd hw hd
    have hno : ¬ (s.ub = true ∨ s.wpc.isDead = true) := by rw [hu, hd']; simp
    cases hr : (s.sk i).running with
    | some x =>
      have hs : ∃ s1, wStep s (.sinkFin i) = some s1 ∧ s1.ub = s.ub ∧ s1.wpc = s.wpc ∧ s1.n = s.n ∧ (s1.sk i).blocked = false ∧
          (s1.sk i).q = (s.sk i).q ∧ (s1.sk i).running = none := by
        unfold wStep
        rw [if_neg hno]
        show ∃ s1, sinkFin s i = some s1 ∧ _
        unfold sinkFin
        rw [if_pos ⟨hn, hb⟩, hr]
        cases x <;> refine ⟨_, rfl, rfl, rfl, rfl, ?_, ?_, ?_⟩ <;> simp [updSink, hb]
      obtain ⟨s1, e1, e2, e3, e4, e5, e6, e7⟩ := hs
      have hsent : sentMsgs (s1.sk i) = sentMsgs (s.sk i) := by
        have e1' := e1
        unfold wStep at e1'
        rw [if_neg hno] at e1'
        change sinkFin s i = some s1 at e1'
        unfold sinkFin at e1'
        rw [if_pos ⟨hn, hb⟩, hr] at e1'
        have hex : (s.sk i).exited = false := by
          cases hx : (s.sk i).exited
          · rfl
          · have := ((hi.w.sinks.loc i).exit hx).2; rw [hr] at this; cases this
        cases x with
        | stop =>
          rw [← Option.some.inj e1']
          show sentMsgs (updSink s.sk i _ i) = _
          rw [show ∀ f : SinkSt M → SinkSt M, updSink s.sk i f i = f (s.sk i) from fun f => if_pos rfl]
          exact sentMsgs_finStop hex hr
        | msg m =>
          rw [← Option.some.inj e1']
          show sentMsgs (updSink s.sk i _ i) = _
          rw [show ∀ f : SinkSt M → SinkSt M, updSink s.sk i f i = f (s.sk i) from fun f => if_pos rfl]
          exact sentMsgs_fin hr
        | fatal m =>
          rw [← Option.some.inj e1']
          show sentMsgs (updSink s.sk i _ i) = _
          rw [show ∀ f : SinkSt M → SinkSt M, updSink s.sk i f i = f (s.sk i) from fun f => if_pos rfl]
          exact sentMsgs_fin hr
        | call c =>
          rw [← Option.some.inj e1']
          show sentMsgs (updSink s.sk i _ i) = _
          rw [show ∀ f : SinkSt M → SinkSt M, updSink s.sk i f i = f (s.sk i) from fun f => if_pos rfl]
          exact sentMsgs_fin hr
      rw [hr] at hm
      obtain ⟨l, s', h1, h2, h3, h4, h5⟩ := ih (2 * (s1.sk i).q.length + (s1.sk i).running.toList.length)
        (by rw [e6, e7]; simp at hm ⊢; omega) (allInv_step hi e1) (by rw [e2, hu]) (by rw [e3]; exact hd) (by rw [e4]; exact hn) e5 rfl
      refine ⟨.sinkFin i :: l, s', ?_, ?_, by rw [h3, hsent], h4, h5⟩
      · intro y hy
        rcases List.mem_cons.1 hy with rfl | hy
        · rfl
        · exact h1 y hy
      · rw [wRun, e1]; exact h2
    | none =>
      cases hq : (s.sk i).q with
      | nil => exact ⟨[], s, by simp, rfl, rfl, hq, hr⟩
      | cons x r =>
        have hex : (s.sk i).exited = false := by
          cases hx : (s.sk i).exited
          · rfl
          · have := ((hi.w.sinks.loc i).exit hx).1; rw [hq] at this; cases this
        have e1 : wStep s (.sinkPop i) = some { s with sk := updSink s.sk i fun k => { k with q := r, running := some x } } := by
          unfold wStep
          rw [if_neg hno]
          show sinkPop s i = _
          unfold sinkPop
          rw [if_pos ⟨hn, hr, hex⟩, hq]
        have hself : updSink s.sk i (fun k => { k with q := r, running := some x }) i = { s.sk i with q := r, running := some x } := if_pos rfl
        rw [hr, hq] at hm
        obtain ⟨l, s', h1, h2, h3, h4, h5⟩ := ih (2 * r.length + 1) (by simp at hm; omega) (allInv_step hi e1) hu hd hn (by
          show (updSink s.sk i _ i).blocked = false
          rw [hself]; exact hb) (by
          show 2 * (updSink s.sk i _ i).q.length + (updSink s.sk i _ i).running.toList.length = _
          rw [hself]; rfl)
        refine ⟨.sinkPop i :: l, s', ?_, ?_, ?_, h4, h5⟩
        · intro y hy
          rcases List.mem_cons.1 hy with rfl | hy
          · rfl
          · exact h1 y hy
        · rw [wRun, e1]; exact h2
        · rw [h3]
          show sentMsgs (updSink s.sk i _ i) = _
          rw [hself]
          exact sentMsgs_pop hr hq

/-- ... so that it processes what is left. -/
theorem sink_catches_up {s : WState M} (hi : AllInv s) (hu : s.ub = false) (hd : s.wpc ≠ .dead) {i : Nat} (hn : i < s.n) (hb : (s.sk i).blocked = false) :
    ∃ l s', (∀ x ∈ l, stepOfSink i x) ∧ wRun s l = some s' ∧ received (s'.sk i) = received (s.sk i) ++ stillAt (s.sk i) := by
  obtain ⟨l, s', h1, h2, h3, h4, h5⟩ := sink_goes_on _ hi hu hd hn hb rfl
  refine ⟨l, s', h1, h2, ?_⟩
  rw [received_drained h4 h5, h3, sent_split]

/-- The thread of the worker does not come back. -/
theorem ended_stays {s s' : WState M} (hw : s.wpc = .ended) {l : List (WLabel M)} (h : wRun s l = some s') : s'.wpc = .ended := by
  refine (wrun_induct (P := fun s => s.wpc = .ended) ?_ l s s' hw h)
  intro a b x ha hx
  obtain ⟨_, _, ht⟩ := tr_of_step hx
  cases ht <;> simp_all [pushTask]

/-! ### C03 -/

/-- C03, exactly, for every sink: when the destructor of the worker has returned, what the sink has not processed of its due is what its thread is at
and what is in its queue; it is kept alive by a client if it is not destroyed, and later it gets nothing but that. -/
theorem C03_exact {ls : List (WLabel M)} {s : WState M} (h : wRun WState.start ls = some s) (hp : s.phase = .returned) (i : Nat) (hn : i < s.n) :
    (∀ l s', wRun s l = some s' → received (s'.sk i) ++ stillAt (s'.sk i) = gets i (handed 0 0 ls)) ∧
    ((s.sk i).destroyed = false → clientUses s i) ∧ (received (s.sk i) = gets i (handed 0 0 ls) ↔ stillAt (s.sk i) = []) := by
  have hi := allInv_run h
  have hg := hi.w.book.gone (by rw [hp]; rfl)
  have hset : settled s := Or.inr (Or.inl hg.2)
  have hfin : ∃ y ∈ handed 0 0 ls, y.final = true := by
    rw [← sub_handed h]
    obtain ⟨pre, hpp, _⟩ := hi.w.book.ended hg.2
    exact ⟨.close, List.mem_map.2 ⟨.done, List.mem_of_mem_take (by rw [hpp]; simp), rfl⟩, rfl⟩
  have main : ∀ l s', wRun s l = some s' → received (s'.sk i) ++ stillAt (s'.sk i) = gets i (handed 0 0 ls) := by
    intro l s' hl
    have hr := wRun_append' h hl
    have hset' : settled s' := by
      refine Or.inr (Or.inl ?_)
      exact ended_stays hg.2 hl
    rw [← sent_split, sent_settled hr hset']
    obtain ⟨t, ht⟩ := handed_append h hl
    rw [ht, gets_final i _ _ hfin]
  refine ⟨main, ?_, ?_⟩
  · intro hd
    by_contra hc
    rw [(C03_partial h hp i hn hc).1] at hd
    cases hd
  · have := main [] s rfl
    rw [← this]
    exact ⟨fun e => List.self_eq_append_right.1 e, fun e => by rw [e, List.append_nil]⟩

/-- C03: such a sink can process the rest, and then it has processed all that is due to it. -/
theorem C03_rest {ls : List (WLabel M)} {s : WState M} (h : wRun WState.start ls = some s) (hp : s.phase = .returned) (hu : s.ub = false) (i : Nat)
    (hn : i < s.n) (hb : (s.sk i).blocked = false) :
    ∃ l s', (∀ x ∈ l, stepOfSink i x) ∧ wRun s l = some s' ∧ received (s'.sk i) = gets i (handed 0 0 ls) := by
  have hi := allInv_run h
  have hg := hi.w.book.gone (by rw [hp]; rfl)
  obtain ⟨l, s', h1, h2, h3⟩ := sink_catches_up hi hu (by rw [hg.2]; simp) hn hb
  exact ⟨l, s', h1, h2, by rw [h3]; exact (C03_exact h hp i hn).1 [] s rfl⟩

/-! ### C04, C05 -/

/-- C04, exactly: when `removeSink(i)` has returned, and at every later moment, what the sink has processed and what it is still at are together what was
due to it before the call; it is up to date exactly if nothing is left with it. -/
theorem C04_exact {l1 l2 : List (WLabel M)} {u s : WState M} {i : Nat} (h1 : wRun WState.start l1 = some u) (hb : u.phase.bgNull = false)
    (h2 : wRun u (.remove i :: l2) = some s) {c : WCall} (hk : s.calls[u.calls.length]? = some c) (hr : c.returned = true)
    (l3 : List (WLabel M)) (s' : WState M) (h3 : wRun s l3 = some s') :
    received (s'.sk i) ++ stillAt (s'.sk i) = gets i (handed 0 0 l1) ∧ (received (s'.sk i) = gets i (handed 0 0 l1) ↔ stillAt (s'.sk i) = []) := by
  have := (remove_main h1 hb h2 hk hr l3 s' h3).2.2.1
  rw [sent_split] at this
  refine ⟨this, ?_⟩
  rw [← this]
  exact ⟨fun e => List.self_eq_append_right.1 e, fun e => by rw [e, List.append_nil]⟩

/-- C04: such a sink can process the rest. -/
theorem C04_rest {l1 l2 : List (WLabel M)} {u s : WState M} {i : Nat} (h1 : wRun WState.start l1 = some u) (hb : u.phase.bgNull = false)
    (h2 : wRun u (.remove i :: l2) = some s) {c : WCall} (hk : s.calls[u.calls.length]? = some c) (hr : c.returned = true) (hu : s.ub = false)
    (hd : s.wpc ≠ .dead) (hn : i < s.n) (hbl : (s.sk i).blocked = false) :
    ∃ l s', (∀ x ∈ l, stepOfSink i x) ∧ wRun s l = some s' ∧ received (s'.sk i) = gets i (handed 0 0 l1) := by
  obtain ⟨l, s', a1, a2, a3⟩ := sink_catches_up (allInv_run (wRun_append' h1 h2)) hu hd hn hbl
  exact ⟨l, s', a1, a2, by rw [a3]; exact (C04_exact h1 hb h2 hk hr [] s rfl).1⟩

/-- C05, exactly: the same for `removeAllSinks()` and every sink created before the call. -/
theorem C05_exact {l1 l2 : List (WLabel M)} {u s : WState M} (h1 : wRun WState.start l1 = some u) (hb : u.phase.bgNull = false)
    (h2 : wRun u (.clear :: l2) = some s) {c : WCall} (hk : s.calls[u.calls.length]? = some c) (hr : c.returned = true) (i : Nat) (hin : i < u.n)
    (l3 : List (WLabel M)) (s' : WState M) (h3 : wRun s l3 = some s') :
    received (s'.sk i) ++ stillAt (s'.sk i) = gets i (handed 0 0 l1) ∧ (received (s'.sk i) = gets i (handed 0 0 l1) ↔ stillAt (s'.sk i) = []) := by
  have := (clear_main h1 hb h2 hk hr i hin l3 s' h3).2.2.1
  rw [sent_split] at this
  refine ⟨this, ?_⟩
  rw [← this]
  exact ⟨fun e => List.self_eq_append_right.1 e, fun e => by rw [e, List.append_nil]⟩

/-- C05: such a sink can process the rest. -/
theorem C05_rest {l1 l2 : List (WLabel M)} {u s : WState M} (h1 : wRun WState.start l1 = some u) (hb : u.phase.bgNull = false)
    (h2 : wRun u (.clear :: l2) = some s) {c : WCall} (hk : s.calls[u.calls.length]? = some c) (hr : c.returned = true) (hu : s.ub = false)
    (hd : s.wpc ≠ .dead) (i : Nat) (hin : i < u.n) (hbl : (s.sk i).blocked = false) :
    ∃ l s', (∀ x ∈ l, stepOfSink i x) ∧ wRun s l = some s' ∧ received (s'.sk i) = gets i (handed 0 0 l1) := by
  have hn : i < s.n := Nat.lt_of_lt_of_le hin (grows_run (allInv_run h1) h2).n
  obtain ⟨l, s', a1, a2, a3⟩ := sink_catches_up (allInv_run (wRun_append' h1 h2)) hu hd hn hbl
  exact ⟨l, s', a1, a2, by rw [a3]; exact (C05_exact h1 hb h2 hk hr i hin [] s rfl).1⟩

/-! ### C07 -/

/-- C07, exactly: when the worker ends the process, what is lost for a sink is what its thread is at and what is in its queue, nothing else; if anything
is lost a client keeps the sink alive. -/
theorem C07_exact {ls : List (WLabel M)} {s : WState M} (h : wRun WState.start ls = some s) (hw : s.wpc = .dead) :
    ∃ pre m post, handed 0 0 ls = pre ++ .fatal m :: post ∧ (∀ r ∈ pre, r.final = false) ∧
      ∀ i, received (s.sk i) ++ stillAt (s.sk i) = gets i pre ++ (if attached i pre then [.fatal m] else []) ∧
        (i < s.n → stillAt (s.sk i) ≠ [] → clientUses s i) := by
  obtain ⟨pre, m, post, e1, e2, e3⟩ := dead_sent h hw
  obtain ⟨pre', m', post', f1, f2, f3⟩ := C07_partial h hw
  refine ⟨pre, m, post, e1, e2, fun i => ⟨by rw [← sent_split]; exact e3 i, ?_⟩⟩
  intro hn hs
  by_contra hc
  have hd := (f3 i hn hc).1
  have hx := (allInv_run h).w.sinks.loc i
  obtain ⟨q1, q2⟩ := hx.exit (hx.des hd)
  apply hs
  unfold stillAt
  rw [q1, q2]
  rfl

/-! ### Examples: sinks held by a client, with something left -/

example : ∃ s, wRun WState.start (heldStart ++ [.dtor, .work, .work, .work, .work, .work, .work, .dtor, .work, .dtor, .dtor]) = some s ∧ s.phase = .returned ∧
    s.ub = false ∧ 0 < s.n ∧ (s.sk 0).blocked = false ∧ stillAt (s.sk 0) = [.log 7] := ⟨_, rfl, rfl, rfl, by decide, rfl, rfl⟩
example : ∃ u s c, wRun WState.start heldStart = some u ∧ u.phase.bgNull = false ∧ wRun u [.remove 0, .work, .work, .work, .work, .work, .ret 1] = some s ∧
    s.calls[u.calls.length]? = some c ∧ c.returned = true ∧ s.ub = false ∧ s.wpc ≠ .dead ∧ 0 < s.n ∧ (s.sk 0).blocked = false ∧
    stillAt (s.sk 0) = [.log 7] := ⟨_, _, _, rfl, rfl, rfl, rfl, rfl, rfl, by decide, by decide, rfl, rfl⟩
example : ∃ u s c, wRun WState.start heldStart = some u ∧ u.phase.bgNull = false ∧ wRun u [.clear, .work, .work, .work, .work, .work, .work, .ret 1] = some s ∧
    s.calls[u.calls.length]? = some c ∧ c.returned = true ∧ 0 < u.n ∧ s.ub = false ∧ s.wpc ≠ .dead ∧ (s.sk 0).blocked = false ∧
    stillAt (s.sk 0) = [.log 7] := ⟨_, _, _, rfl, rfl, rfl, rfl, rfl, by decide, rfl, by decide, rfl, rfl⟩
example : ∃ s, wRun WState.start (heldStart ++ [.fatal 8, .work, .work, .work, .work, .work, .work, .work, .work]) = some s ∧ s.wpc = .dead ∧
    stillAt (s.sk 0) = [.log 7, .fatal 8] := ⟨_, rfl, rfl, rfl⟩

end G3.Props
