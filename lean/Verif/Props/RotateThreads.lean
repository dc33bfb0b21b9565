import Verif.Props.Rotate
/-
C98 for programs with several threads, and what it does not promise.
-/
namespace G3.Props
open G3 G3.Spec

/-- The steps of a schedule that are not made by the threads that log. -/
def otherSteps (ls : List PLabel) : List (WLabel LogMessage) := ls.filterMap fun
  | .worker x => some x
  | .thread _ => none

theorem calledOn_save (i : Nat) (m : LogMessage) (ls : List (WLabel LogMessage)) : calledOn i (.save m :: ls) = calledOn i ls := rfl

/-- What a schedule does to the worker, with the calls through handles. -/
theorem worker_calls {full : Bool} {size : Nat} (hs : 1 ≤ size) {ls : List PLabel} : ∀ {s s' : PState}, ptRun full size s ls = some s' →
    ∃ wls new, wRun s.worker wls = some s'.worker ∧ s'.acc = s.acc ++ new ∧ wls.filterMap saveOf = new.map (fun x => stmtMsg full size x.2) ∧
      (∀ x ∈ wls, (∃ m, x = .save m) ∨ .worker x ∈ ls) ∧ (∀ x ∈ new, x.2.level.value < 1000) ∧
      ∀ i, calledOn i wls = calledOn i (otherSteps ls) := by
  induction ls with
  | nil => intro s s' hr; cases hr; exact ⟨[], [], rfl, by simp, rfl, by simp, by simp, fun _ => rfl⟩
  | cons l ls ih =>
    intro s s' hr
    obtain ⟨u, hu, hr⟩ := Option.bind_eq_some_iff.1 hr
    obtain ⟨wls, new, a, b, c, d, lv, cl⟩ := ih hr
    have keep : ∀ x ∈ wls, (∃ m, x = .save m) ∨ PLabel.worker x ∈ l :: ls := fun x hx => (d x hx).imp id (List.mem_cons_of_mem _)
    cases l with
    | worker x =>
      simp only [ptStep] at hu
      split at hu
      · cases hu
      · next hx =>
        obtain ⟨w, hw, rfl⟩ := Option.map_eq_some_iff.1 hu
        refine ⟨x :: wls, new, by rw [wRun, hw]; exact a, b, ?_, ?_, lv, ?_⟩
        · rw [List.filterMap_cons_none, c]
          cases x <;> first | rfl | exact absurd rfl hx
        · intro y hy
          rcases List.mem_cons.1 hy with rfl | hy
          · exact Or.inr List.mem_cons_self
          · exact keep y hy
        · intro i
          have e1 := calledOn_append i [x] wls
          have e2 := calledOn_append i [x] (otherSteps ls)
          rw [List.singleton_append] at e1 e2
          rw [e1, cl]
          exact e2.symm
    | thread t =>
      simp only [ptStep] at hu
      cases hh : (s.th t).held with
      | some st =>
        rw [hh] at hu
        obtain ⟨hlv, w, hw, rfl⟩ := handOver_eq hs hu
        refine ⟨.save (stmtMsg full size st) :: wls, (t, st) :: new, by rw [wRun, hw]; exact a, ?_, ?_, ?_, ?_, ?_⟩
        · rw [b]; simp
        · show stmtMsg full size st :: wls.filterMap saveOf = _
          rw [c]; rfl
        · intro y hy
          rcases List.mem_cons.1 hy with rfl | hy
          · exact Or.inl ⟨_, rfl⟩
          · exact keep y hy
        · intro y hy
          rcases List.mem_cons.1 hy with rfl | hy
          · exact hlv
          · exact lv y hy
        · intro i; rw [calledOn_save, cl]; rfl
      | none =>
        rw [hh] at hu
        have same : u.worker = s.worker → u.acc = s.acc → ∃ wls new, wRun s.worker wls = some s'.worker ∧ s'.acc = s.acc ++ new ∧
            wls.filterMap saveOf = new.map (fun x => stmtMsg full size x.2) ∧ (∀ x ∈ wls, (∃ m, x = .save m) ∨ PLabel.worker x ∈ .thread t :: ls) ∧
            (∀ x ∈ new, x.2.level.value < 1000) ∧ ∀ i, calledOn i wls = calledOn i (otherSteps (.thread t :: ls)) := by
          intro e1 e2
          exact ⟨wls, new, by rw [← e1]; exact a, by rw [← e2]; exact b, c, keep, lv, cl⟩
        simp only [nextUse] at hu
        split at hu
        · cases hu
        · cases hu; exact same rfl rfl
        · cases hu; exact same rfl rfl

/-- Steps of the background threads, and of clients that use the handle of a sink. -/
def handleUse {M : Type} : WLabel M → Prop
  | .ret _ => True
  | .work => True
  | .sinkPop _ => True
  | .sinkFin _ => True
  | .hold _ => True
  | .holdFail _ _ => True
  | .call _ _ => True
  | .release _ => True
  | .reap _ => True
  | _ => False

theorem handed_handle {n d : Nat} (hd : d < 2) (r : List (WLabel LogMessage)) : ∀ wls : List (WLabel LogMessage),
    (∀ x ∈ wls, (∃ m, x = .save m) ∨ handleUse x) → handed n d (wls ++ r) = (wls.filterMap saveOf).map .log ++ handed n d r
  | [], _ => rfl
  | x :: wls, h => by
    have ih := handed_handle (n := n) hd r wls (fun y hy => h y (List.mem_cons_of_mem _ hy))
    rw [List.cons_append]
    rcases h x List.mem_cons_self with ⟨m, rfl⟩ | hx
    · rw [handed, if_pos hd, ih]; rfl
    · cases x <;> first | exact hx.elim | (rw [List.filterMap_cons_none rfl, ← ih]; rfl)

theorem handed_last (n : Nat) : ∀ (wls : List (WLabel LogMessage)) (d : Nat), 1 ≤ d → (∀ x ∈ wls, x = .dtor ∨ handleUse x) →
    ∀ r ∈ handed n d wls, r = .close
  | [], _, _, _ => by intro r hr; cases hr
  | x :: wls, d, hd, h => by
    have ih := fun e he => handed_last n wls e he (fun y hy => h y (List.mem_cons_of_mem _ hy))
    intro r hr
    rcases h x List.mem_cons_self with rfl | hx
    · rcases d with _ | _ | d
      · omega
      · have hr : r ∈ Req.close :: handed n 2 wls := hr
        rcases List.mem_cons.1 hr with rfl | hr
        · rfl
        · exact ih 2 (by omega) r hr
      · exact ih (d + 2) (by omega) r hr
    · cases x <;> first | exact hx.elim | exact ih d hd r hr

/-- C98: any number of threads run LOG statements and change levels while the file of the sink is changed, again and again, from any
threads. When all have come to their ends, the worker has been destroyed and nobody keeps the sink alive, the files have the lines of the executed
statements: every line in exactly one file, complete, the lines of every thread in the order of its program. -/
theorem C98_threads (E : Env) (full : Bool) (size : Nat) (hsz : 1 ≤ size) (progs : Nat → List PStep)
    {pre : List (WLabel LogMessage)} {w0 : WState LogMessage} (h0 : wRun WState.start pre = some w0) (hpre : handed 0 0 pre = [.attach 0])
    (hc0 : calledOn 0 pre = []) (hn0 : 0 < w0.n) (hph : w0.phase = .notStarted)
    {ls : List PLabel} {s : PState} (hr : ptRun full size (PState.start w0 progs) ls = some s) (hbg : ∀ x, .worker x ∈ ls → handleUse x)
    (hall : ∀ t, (s.th t).todo = [] ∧ (s.th t).held = none) (hd : Documented sInit (uses s.trace))
    {dls : List (WLabel LogMessage)} {w : WState LogMessage} (hw : wRun s.worker (.dtor :: dls) = some w) (hdls : ∀ x ∈ dls, x = .dtor ∨ handleUse x)
    (hp : w.phase = .returned) (hcl : ¬ clientUses w 0) {k : FileSink} {fs : FS} {p path : Str} {N : Nat} (hN : 1 ≤ N) (h : Constructed k fs p path N)
    {calls : Nat → SinkOp} (ha : ∀ c, Askable (calls c)) (hf : ∀ c g, calls c ≠ .overrideDetails g)
    {ops : List SinkOp} (ho : PerformsAll calls (w.sk 0).done ops)
    (hnd : (path :: targets p ((calledOn 0 (otherSteps ls ++ dls)).map calls)).Nodup) (time : Str) :
    ∃ trace order k' fs' outs files, (∀ t, ofThread t trace = progs t) ∧ (∀ t, ofThread t order = ofThread t (executedBy sInit trace)) ∧
      sinkRun E k fs ops = .ok (k', fs', outs) ∧ files.map Prod.fst = path :: targets p ((calledOn 0 (otherSteps ls ++ dls)).map calls) ∧
      (∀ x ∈ files, k'.destroy fs' time x.1 = some (chunkText x.2)) ∧ Distributed (order.map fun x => stmtLine E full size x.2) files := by
  have hi := pInv_run hsz (pInv_start w0 progs) hr
  obtain ⟨wls, new, a, b, c, d, lv, cl⟩ := worker_calls hsz hr
  have hb : s.acc = new := by rw [b]; rfl
  replace a : wRun w0 wls = some s.worker := a
  subst hb
  have hwls : ∀ x ∈ wls, (∃ m, x = .save m) ∨ handleUse x := fun x hx => (d x hx).imp id (hbg x)
  have hrun := wRun_append' h0 (wRun_append' a hw)
  have hh : handed 0 0 (pre ++ (wls ++ .dtor :: dls)) =
      .attach 0 :: (s.acc.map fun x => stmtMsg full size x.2).map .log ++ .detachAll :: handed w0.n 1 dls := by
    rw [← sub_handed hrun, handed_run _ _ _ (wRun_append' a hw), sub_handed h0, hpre, hph]
    show [Req.attach 0] ++ handed w0.n 0 (wls ++ .dtor :: dls) = _
    rw [handed_handle (by omega) _ wls hwls, c]
    rfl
  have hcalls : calledOn 0 (pre ++ (wls ++ .dtor :: dls)) = calledOn 0 (otherSteps ls ++ dls) := by
    rw [calledOn_append, hc0, calledOn_append, calledOn_append, cl]; rfl
  have hn : 0 < w.n := Nat.lt_of_lt_of_le hn0 (grows_run (allInv_run h0) (wRun_append' a hw)).n
  obtain ⟨k', fs', outs, files, h1, h2, h3, h4, _⟩ := C98_files hrun hp hn hcl E hN h ha hf ho (by rw [hcalls]; exact hnd) time
  rw [hh, C51_all_logged 0 _ _ (by intro hm; have := handed_last w0.n dls 1 (Nat.le_refl _) hdls _ hm; cases this)] at h4
  refine ⟨s.trace, s.acc, k', fs', outs, files, ?_, ?_, h1, by rw [← hcalls]; exact h2, h3, ?_⟩
  · intro t
    have := hi.trace t
    rw [(hall t).1, List.append_nil] at this
    exact this
  · intro t
    have := hi.acc hd t
    rw [(hall t).2] at this
    simpa using this.symm
  · unfold Distributed at h4 ⊢
    rw [h4, List.map_map, List.map_map]
    apply List.map_congr_left
    intro x hx
    exact stmt_toString E full size x.2 (lv x hx)

/-! ### What is not promised -/

/-- A change of the file to `e/p.t.log`. -/
def change7 : Nat → SinkOp := fun _ => .change "e/".toList [] [] "t".toList [] true

/-- A thread logs and then changes the file. -/
def logThenChange (m : LogMessage) : List (WLabel LogMessage) := [.add, .work, .ret 0, .save m, .hold 0]

/-- The sink is quicker than the worker. -/
def quickSink : List (WLabel LogMessage) := [.release 0, .sinkPop 0, .sinkFin 0, .work, .work, .work, .sinkPop 0, .sinkFin 0, .dtor, .work, .work,
  .sinkPop 0, .sinkFin 0, .work, .work, .dtor, .work, .dtor, .dtor]

theorem quick_run (m : LogMessage) : ∃ u w, wRun WState.start (logThenChange m) = some u ∧ wRun u (.call 0 7 :: quickSink) = some w ∧
    w.phase = .returned ∧ 0 < w.n ∧ ¬ clientUses w 0 ∧ (w.sk 0).done = [.call 7, .msg m] ∧ u.sub = [.add 0, .save m] :=
  ⟨_, _, rfl, rfl, rfl, Nat.zero_lt_one, unused_of rfl rfl rfl, rfl, rfl⟩

/-- C98 fails for what was logged before: a thread logs a message and then asks for a change, the sink flushes after every entry, and the line is in the
new file, because the change does not take the way through the queue of the worker. -/
theorem C98_negation (E : Env) (m : LogMessage) :
    ∃ (s : FileSink) (fs : FS) (old new : Str) (u w : WState LogMessage), Constructed s fs "p".toList old 1 ∧ old ≠ new ∧
      wRun WState.start (logThenChange m) = some u ∧ .save m ∈ logThenChange m ∧ wRun u (.call 0 7 :: quickSink) = some w ∧ w.phase = .returned ∧
      ∃ ops s' fs' outs, PerformsAll change7 (w.sk 0).done ops ∧ sinkRun E s fs ops = .ok (s', fs', outs) ∧
        ∃ o l : List Chunk, s'.destroy fs' [] old = some (chunkText o) ∧ entries o = [] ∧
          s'.destroy fs' [] new = some (chunkText l) ∧ entries l = [(toString E m .default).1] := by
  obtain ⟨u, w, h1, h2, h3, h4, h5, h6, _⟩ := quick_run m
  obtain ⟨s, fs, h⟩ := sample_constructed1
  have hne : "d/p.x.t.log".toList ≠ targetName "p".toList "e/".toList [] "t".toList := by decide
  have ho : PerformsAll change7 (w.sk 0).done [change7 7, .write m []] := by
    rw [h6]; exact .task (.call 7) (.task (.msg m []) .nil)
  obtain ⟨s', fs', outs, e, b, a, hb, ha, hd, eb, ea⟩ := C41_exact E (Nat.le_refl 1) h [] [.write m []] "e/".toList [] [] "t".toList []
    (by simpa [targets] using hne) []
  refine ⟨s, fs, _, _, u, w, h, hne, h1, by simp [logThenChange], h2, h3, _, s', fs', outs, ho, e, ?_⟩
  have lb := congrArg List.length hb
  have la := congrArg List.length ha
  simp only [List.length_map, targets, List.length_cons, List.length_nil] at lb la
  obtain ⟨b1, rfl⟩ := List.length_eq_one_iff.mp lb
  obtain ⟨a1, rfl⟩ := List.length_eq_one_iff.mp la
  simp only [List.map_cons, List.map_nil, targets, List.cons.injEq, and_true] at hb ha
  refine ⟨b1.2, a1.2, ?_, ?_, ?_, ?_⟩
  · rw [← hb]; exact hd b1 (by simp)
  · simpa [Spec.received] using eb
  · rw [← ha]; exact hd a1 (by simp)
  · simpa [Spec.received, fmtAfter] using ea

/-! ### Non-trivial cases -/

/-- The operations that may be asked for. -/
example : (∀ c, Askable (change7 c)) ∧ (∀ c g, change7 c ≠ .overrideDetails g) :=
  ⟨fun _ => trivial, fun _ _ => by simp [change7]⟩

/-- A message, a second sink (a synchronous call of the worker), then the change and one more message: with the names of the files all different. -/
example (m : LogMessage) : ∃ u1 u w, wRun WState.start ([.add, .work, .ret 0, .save m] : List (WLabel LogMessage)) = some u1 ∧ u1.phase.bgNull = false ∧
    wRun u1 [.add, .work, .work, .work, .work, .ret 1, .hold 0] = some u ∧ u.calls[u1.calls.length]? = some ⟨.add 1, some 2, true⟩ ∧
    wRun u [.call 0 7, .release 0, .save m, .sinkPop 0, .sinkFin 0, .sinkPop 0, .sinkFin 0, .work, .work, .work, .work, .sinkPop 0, .sinkFin 0,
      .sinkPop 1, .sinkFin 1, .dtor, .work, .work, .sinkPop 0, .sinkFin 0, .work, .work, .sinkPop 1, .sinkFin 1, .work, .work, .dtor, .work, .dtor, .dtor] =
      some w ∧ w.phase = .returned ∧ ¬ clientUses w 0 ∧ (w.sk 0).done = [.msg m, .call 7, .msg m] :=
  ⟨_, _, _, rfl, rfl, rfl, rfl, rfl, rfl, unused_of rfl rfl rfl, rfl⟩

example : ("d/p.x.t.log".toList :: targets "p".toList ([7].map change7)).Nodup := by decide

/-- Two threads log, a third one changes the file in between. -/
example : ∃ w0 s w, wRun (WState.start : WState LogMessage) [.add, .work, .ret 0] = some w0 ∧ handed 0 0 ([.add, .work, .ret 0] : List (WLabel LogMessage)) = [.attach 0] ∧
    calledOn 0 ([.add, .work, .ret 0] : List (WLabel LogMessage)) = [] ∧ 0 < w0.n ∧ w0.phase = .notStarted ∧
    ptRun false 2048 (PState.start w0 fun t => if t < 2 then [.log (infoStmt t)] else [])
      [.thread 0, .thread 1, .thread 1, .worker .work, .worker (.hold 0), .worker .work, .worker (.call 0 7), .thread 0, .worker .work, .worker (.release 0)] =
      some s ∧
    (∀ t, (s.th t).todo = [] ∧ (s.th t).held = none) ∧ s.acc = [(1, infoStmt 1), (0, infoStmt 0)] ∧
    wRun s.worker [.dtor, .work, .work, .work, .work, .work, .sinkPop 0, .sinkFin 0, .sinkPop 0, .sinkFin 0, .sinkPop 0, .sinkFin 0, .sinkPop 0, .sinkFin 0,
      .work, .work, .dtor, .work, .dtor, .dtor] = some w ∧ w.phase = .returned ∧ ¬ clientUses w 0 := by
  refine ⟨_, _, _, rfl, rfl, rfl, Nat.zero_lt_one, rfl, rfl, ?_, rfl, rfl, rfl, unused_of rfl rfl rfl⟩
  intro t
  rcases t with _ | _ | t <;> exact ⟨rfl, rfl⟩

/-- A message, a change and a fatal event. -/
example (m f : LogMessage) : ∃ w, wRun WState.start ([.add, .work, .ret 0, .hold 0, .call 0 7, .release 0, .save m, .fatal f, .work, .work, .work, .work, .work, .work,
    .sinkPop 0, .sinkFin 0, .sinkPop 0, .sinkFin 0, .sinkPop 0, .sinkFin 0, .work, .sinkPop 0, .sinkFin 0, .work, .work] : List (WLabel LogMessage)) = some w ∧
    w.wpc = .dead ∧ ¬ clientUses w 0 ∧ (w.sk 0).done = [.call 7, .msg m, .fatal f] := ⟨_, rfl, rfl, unused_of rfl rfl rfl, rfl⟩

end G3.Props
