import Verif.Proofs.Front
import Verif.Model.Race
import Verif.Props.Capture
import Verif.Props.CrashText
/-
Properties of the front end (g3log.cpp): C10, C11, C12, C13, C14, C47, C48, C49, C53.
-/
namespace G3.Props
open G3 G3.Spec

/-! ### C10 -/

/-- C10: of all messages logged before the first initialisation exactly the first reaches the first worker,
marked, ahead of everything else; after that, messages go to the worker active at the time, in order, and
messages logged in later periods without a worker go nowhere. -/
theorem C10_first_kept (E : Env) (src : Src) (d : Nat) (pre post : List FOp) (w : Nat)
    (h1 : calm pre) (h2 : noInit pre) (h3 : calm post) :
    saves (fRun E src d Front.start (pre ++ .init (some w) :: post)).2.1 =
      ((firstLog pre).toList.map fun m => (w, keptForm m)) ++ deliveries (some w) post := by
  obtain ⟨a, b, c, e, g⟩ := pre_run E src d pre h1 h2 Front.start rfl (fun _ => rfl)
  rw [fRun_append_ok E src d pre _ _ a]
  simp only [saves_append, c, List.nil_append]
  generalize hf : (fRun E src d Front.start pre).1 = f at *
  have g' : f.first = (firstLog pre).map keptForm := g
  have e' : f.saveOnce = false := e
  rw [fRun_cons]
  have hst : fStep E src d f (.init (some w)) = initializeLogging src f (some w) := rfl
  rw [hst]
  unfold initializeLogging
  have hin : saves (if f.installed = true then [] else [Eff.install]) = [] := by split <;> rfl
  simp only [b, e', Bool.false_eq_true, if_false, Stat.goesOn, if_true]
  rw [saves_append, saves_append, hin, post_run E src d post h3 _ (by rfl), g']
  cases firstLog pre <;> rfl

/-- C10: before any initialisation nothing reaches a worker and LOG does not fail. -/
theorem C10_before (E : Env) (src : Src) (d : Nat) (pre : List FOp) (h1 : calm pre) (h2 : noInit pre) :
    saves (fRun E src d Front.start pre).2.1 = [] ∧ (fRun E src d Front.start pre).2.2 = .ok := by
  obtain ⟨a, _, c, _⟩ := pre_run E src d pre h1 h2 Front.start rfl (fun _ => rfl)
  exact ⟨c, a⟩

/-- C10: the first such message (and only it) is also printed to stderr. -/
theorem C10_stderr (E : Env) (src : Src) (d : Nat) (pre : List FOp) (h1 : calm pre) (h2 : noInit pre) :
    (fRun E src d Front.start pre).2.1 =
      (firstLog pre).toList.map fun m => Eff.err ("LOGGER NOT INITIALIZED:\n\t\t".toList ++ m.message ++ "\n".toList) := by
  have key : ∀ (ops : List FOp), calm ops → noInit ops → ∀ f : Front, f.inst = none →
      (fRun E src d f ops).2.1 = if f.setOnce then [] else
        (firstLog ops).toList.map fun m => Eff.err ("LOGGER NOT INITIALIZED:\n\t\t".toList ++ m.message ++ "\n".toList) := by
    intro ops
    induction ops with
    | nil => intro _ _ f _; cases f.setOnce <;> rfl
    | cons op ops ih =>
      intro hc hi f h0
      have hc' := calm_tail hc
      have hi' := noInit_tail hi
      rw [fRun_cons]
      cases op with
      | log m =>
        have hst : fStep E src d f (.log m) = pushMessageToLogger f m := rfl
        rw [hst]
        unfold pushMessageToLogger
        rw [h0]
        cases hs : f.setOnce with
        | true =>
          simp only [if_true, Stat.goesOn, List.nil_append]
          rw [ih hc' hi' f h0, hs]; rfl
        | false =>
          simp only [Bool.false_eq_true, if_false, Stat.goesOn, if_true]
          rw [ih hc' hi' _ (by rfl)]
          rfl
      | init w => exact absurd (by simp) (hi w)
      | shutdown =>
        have hst : fStep E src d f .shutdown = ({ f with inst := none }, [], .ok) := rfl
        rw [hst]
        simp only [Stat.goesOn, if_true, List.nil_append]
        rw [ih hc' hi' _ (by rfl)]; rfl
      | shutdownActive warn m w =>
        have hst : fStep E src d f (.shutdownActive warn m w) = ({ f with inst := none }, [], .ok) := by
          show (shutDownLoggingForActiveOnly warn m f w).1 = _
          rw [sdActive_eq, h0]; rfl
        rw [hst]
        simp only [Stat.goesOn, if_true, List.nil_append]
        rw [ih hc' hi' _ (by rfl)]; rfl
      | setHook hk => exact ih hc' hi' (setFatalPreLoggingHook f (some hk)) h0
      | setHandler hk => exact ih hc' hi' (setFatalExitHandler f hk) h0
      | fatal m t n => exact absurd (by simp) (hc m t n)
  exact key pre h1 h2 Front.start rfl

example : let m (s : String) : LogMessage := { LogMessage.new false 0 1 [] 0 [] INFO with message := s.toList }
    calm [.log (m "a"), .log (m "b"), .init (some 3), .log (m "c"), .shutdown, .log (m "d"), .init (some 4), .log (m "e")] ∧
    ((firstLog [.log (m "a"), .log (m "b")]).toList.map fun x => (3, keptForm x)) ++
      deliveries (some 3) [.log (m "c"), .shutdown, .log (m "d"), .init (some 4), .log (m "e")] =
      [(3, keptForm (m "a")), (3, m "c"), (4, m "e")] := by
  refine ⟨?_, rfl⟩
  intro a b c; simp

/-! ### C11 -/

/-- C11: once some worker has been initialised, after a shut-down (or the destruction of the active worker)
any number of LOG calls reach nobody and return normally; after a new initialisation messages go to the new worker,
and nothing of the time between is delivered. -/
theorem C11_after_shutdown (E : Env) (src : Src) (d : Nat) (pre post : List FOp) (w w' : Nat) (ms ms' : List LogMessage)
    (h1 : calm pre) (h2 : noInit pre) (h3 : calm post)
    (hok : (fRun E src d Front.start (pre ++ .init (some w) :: post)).2.2 = .ok) :
    saves (fRun E src d Front.start (pre ++ .init (some w) :: post ++ .shutdown :: ms.map .log)).2.1 =
      saves (fRun E src d Front.start (pre ++ .init (some w) :: post)).2.1 ∧
    (fRun E src d Front.start (pre ++ .init (some w) :: post ++ .shutdown :: ms.map .log)).2.2 = .ok ∧
    saves (fRun E src d Front.start (pre ++ .init (some w) :: post ++ .shutdown :: ms.map .log ++
        .init (some w') :: ms'.map .log)).2.1 =
      saves (fRun E src d Front.start (pre ++ .init (some w) :: post)).2.1 ++ ms'.map fun m => (w', m) := by
  -- deliveries of the tails
  have dn : ∀ (ms : List LogMessage) (r : List FOp), deliveries none (ms.map FOp.log ++ r) = deliveries none r := by
    intro ms r; induction ms with
    | nil => rfl
    | cons m ms ih => exact ih
  have ds : ∀ (ms : List LogMessage), deliveries (some w') (ms.map FOp.log) = ms.map fun m => (w', m) := by
    intro ms; induction ms with
    | nil => rfl
    | cons m ms ih => exact congrArg _ ih
  have cl : ∀ ms : List LogMessage, calm (ms.map FOp.log) := by intro ms a b c; simp
  -- the state after the first part
  have hsave : (fRun E src d Front.start (pre ++ .init (some w) :: post)).1.saveOnce = true := by
    obtain ⟨a, b, _, _, _⟩ := pre_run E src d pre h1 h2 Front.start rfl (fun _ => rfl)
    rw [fRun_append_ok E src d pre _ _ a]
    simp only
    generalize (fRun E src d Front.start pre).1 = f at *
    have hst : fStep E src d f (.init (some w)) = initializeLogging src f (some w) := rfl
    obtain ⟨i1, i2⟩ := init_save' src f w b
    rw [fRun_cons, hst, if_pos (by rw [i2]; rfl)]
    exact keep_save E src d post h3 _ i1
  have tail : ∀ r : List FOp, calm r →
      saves (fRun E src d Front.start (pre ++ .init (some w) :: post ++ r)).2.1 =
        saves (fRun E src d Front.start (pre ++ .init (some w) :: post)).2.1 ++
          deliveries (fRun E src d Front.start (pre ++ .init (some w) :: post)).1.inst r := by
    intro r hr
    rw [fRun_append_ok E src d _ r _ hok]
    simp only [saves_append]
    rw [post_run E src d r hr _ hsave]
  have dsh : ∀ (a : Option Nat) (r : List FOp), deliveries a (.shutdown :: r) = deliveries none r := by
    intro a r; cases a <;> rfl
  refine ⟨?_, ?_, ?_⟩
  · rw [tail _ (by intro a b c; simp), dsh]
    have := dn ms []
    rw [List.append_nil] at this
    rw [this]; exact List.append_nil _
  · rw [fRun_append_ok E src d _ _ _ hok]
    simp only
    generalize (fRun E src d Front.start (pre ++ .init (some w) :: post)).1 = f
    show (fRun E src d (shutDownLogging f) (ms.map .log)).2.2 = .ok
    exact logs_ok E src d ms _
  · rw [List.append_assoc, tail _ (by intro a b c; simp), List.cons_append, dsh, dn]
    show _ ++ deliveries (some w') _ = _
    rw [ds]

/-! ### C12 -/

/-- The state after a history that has not ended the program. -/
def Reached (E : Env) (src : Src) (d : Nat) (f : Front) : Prop :=
  ∃ ops, (fRun E src d Front.start ops).1 = f ∧ (fRun E src d Front.start ops).2.2.goesOn = true

/-- C12: shutting down on behalf of a worker. In every reachable state: for a worker that is not the active one
the call is refused (returns false), the active worker stays and gets exactly one warning (if WARNING is enabled);
in all other cases it returns true, logging is off and nobody gets anything. -/
theorem C12_shutdown_active (E : Env) (src : Src) (d : Nat) (f : Front) (_ : Reached E src d f) (warn : Bool) (m : LogMessage)
    (b : Option Nat) :
    (∀ a c, f.inst = some a → b = some c → c ≠ a →
      (shutDownLoggingForActiveOnly warn m f b).2 = false ∧
      (shutDownLoggingForActiveOnly warn m f b).1.1 = f ∧
      isLoggingInitialized (shutDownLoggingForActiveOnly warn m f b).1.1 = true ∧
      saves (shutDownLoggingForActiveOnly warn m f b).1.2.1 = if warn then [(a, m)] else []) ∧
    ((f.inst = none ∨ b = none ∨ b = f.inst) →
      (shutDownLoggingForActiveOnly warn m f b).2 = true ∧
      isLoggingInitialized (shutDownLoggingForActiveOnly warn m f b).1.1 = false ∧
      (shutDownLoggingForActiveOnly warn m f b).1.2.1 = []) := by
  constructor
  · rintro a c ha rfl hne
    rw [sdActive_eq, ha]
    simp only
    rw [if_neg (fun h => hne h.symm)]
    refine ⟨rfl, rfl, by simp [isLoggingInitialized, ha], ?_⟩
    cases warn <;> rfl
  · intro h
    rw [sdActive_eq]
    cases ha : f.inst with
    | none => exact ⟨rfl, rfl, rfl⟩
    | some a =>
      cases b with
      | none => exact ⟨rfl, rfl, rfl⟩
      | some c =>
        have : a = c := by
          rcases h with h | h | h
          · rw [ha] at h; cases h
          · cases h
          · rw [ha] at h; cases h; rfl
        simp only
        rw [if_pos this]
        exact ⟨rfl, rfl, rfl⟩

example : ∃ f, Reached ⟨fun _ => [], fun _ => [], fun _ _ => []⟩ ⟨[], []⟩ 1 f ∧ f.inst = some 1 :=
  ⟨_, ⟨[.init (some 1)], rfl, rfl⟩, rfl⟩

/-! ### C13 -/

/-- C13: after any history, `initializeLogging(nullptr)` or a second initialisation ends the process with
EXIT_FAILURE, whatever follows in the program, and hands nothing to any worker. -/
theorem C13_illegal (E : Env) (src : Src) (d : Nat) (ops rest : List FOp) (w : Option Nat)
    (hok : (fRun E src d Front.start ops).2.2 = .ok)
    (h : w = none ∨ isLoggingInitialized (fRun E src d Front.start ops).1 = true) :
    (fRun E src d Front.start (ops ++ .init w :: rest)).2.2 = .exitFailure ∧
    saves (fRun E src d Front.start (ops ++ .init w :: rest)).2.1 = saves (fRun E src d Front.start ops).2.1 := by
  rw [fRun_append_ok E src d ops _ _ hok]
  generalize (fRun E src d Front.start ops).1 = f at h
  simp only [saves_append]
  have hst : fStep E src d f (.init w) = initializeLogging src f w := rfl
  have hi : (initializeLogging src f w).2.2 = .exitFailure ∧ saves (initializeLogging src f w).2.1 = [] := by
    obtain ⟨i, inst, fst, s1, s2, hook, c, ft, hd⟩ := f
    cases i <;> cases inst <;> cases w <;> first
      | exact ⟨rfl, rfl⟩
      | simp [isLoggingInitialized] at h
  rw [fRun_cons, hst, if_neg (by rw [hi.1]; decide)]
  exact ⟨hi.1, by rw [hi.2, List.append_nil]⟩

/-- C13: every other initialisation succeeds and makes the given worker the active one. -/
theorem C13_legal (E : Env) (src : Src) (d : Nat) (ops : List FOp) (w : Nat)
    (hok : (fRun E src d Front.start ops).2.2 = .ok) (h : isLoggingInitialized (fRun E src d Front.start ops).1 = false) :
    (fRun E src d Front.start (ops ++ [.init (some w)])).2.2 = .ok ∧
    (fRun E src d Front.start (ops ++ [.init (some w)])).1.inst = some w := by
  rw [fRun_append_ok E src d ops _ _ hok]
  generalize (fRun E src d Front.start ops).1 = f at h
  have hst : fStep E src d f (.init (some w)) = initializeLogging src f (some w) := rfl
  have hi : (initializeLogging src f (some w)).2.2 = .ok ∧ (initializeLogging src f (some w)).1.inst = some w := by
    obtain ⟨i, inst, fst, s1, s2, hook, c, ft, hd⟩ := f
    cases inst with
    | none => cases s2 <;> exact ⟨rfl, rfl⟩
    | some a => simp [isLoggingInitialized] at h
  simp only
  rw [fRun_cons, hst, if_pos (by rw [hi.1]; rfl)]
  exact ⟨rfl, hi.2⟩

/-- C13: the message printed says which of the two mistakes was made. -/
theorem C13_message (src : Src) (f : Front) (w : Option Nat) (h : w = none ∨ isLoggingInitialized f = true) :
    Eff.err (src.file ++ "->initializeLogging:62\n\tFatal exit due to illegal initialization of g3::LogWorker\n\t(due to multiple initializations? : ".toList
      ++ (if isLoggingInitialized f then "true".toList else "false".toList) ++ ", due to nullptr == bgworker? : ".toList ++
      (if w = none then "true".toList else "false".toList) ++ ")\n".toList) ∈ (initializeLogging src f w).2.1 := by
  obtain ⟨i, inst, fst, s1, s2, hook, c, ft, hd⟩ := f
  have key : ∀ i, Eff.err (src.file ++ "->initializeLogging:62\n\tFatal exit due to illegal initialization of g3::LogWorker\n\t(due to multiple initializations? : ".toList
      ++ (if inst.isSome then "true".toList else "false".toList) ++ ", due to nullptr == bgworker? : ".toList ++
      (if w = none then "true".toList else "false".toList) ++ ")\n".toList) =
      Eff.err (illegalInitText src ⟨i, inst, fst, s1, s2, hook, c, ft, hd⟩ w) := by
    intro i
    unfold illegalInitText alpha
    congr 1
    cases w <;> simp
  unfold isLoggingInitialized
  rw [key true]
  cases inst <;> cases w <;> first
      | exact List.mem_append_right _ (List.mem_singleton.2 rfl)
      | simp [isLoggingInitialized] at h

/-! ### C14 -/

/-- C14 is false: line 195 sees the logger, then it is shut down, then line 208 dereferences a null pointer; or the
worker is destroyed between the read of the pointer and its use. -/
theorem C14_negation :
    (∃ ls s, rRun (rStart 1) ls = some s ∧ s.pc 0 = .faulty ∧ ∀ w, RLabel.destroy w ∉ ls) ∧
    (∃ ls s, rRun (rStart 1) ls = some s ∧ s.pc 0 = .faulty ∧ s.alive 1 = false) := by
  refine ⟨⟨[.check 0, .shutdown, .load 0, .call 0], _, rfl, rfl, by intro w; simp⟩,
    ⟨[.check 0, .load 0, .shutdown, .destroy 1, .call 0], _, rfl, rfl, rfl⟩⟩

/-- Nobody is between the check and the use. -/
def quiet (s : RState) : Prop := ∀ t, s.pc t = .out ∨ s.pc t = .done

/-- Schedules in which logging is shut down, and a worker released, only while no LOG call is in progress. -/
def orderly (s : RState) : List RLabel → Prop
  | [] => True
  | l :: ls => (match l with | .shutdown => quiet s | .destroy _ => quiet s | _ => True) ∧ ∀ s', rStep s l = some s' → orderly s' ls

/-- C14 (partial: only if nobody is inside LOG while logging is shut down or the worker released): no LOG call ever
touches a null or destroyed worker. Any number of threads, every interleaving. -/
theorem C14_no_fault_partial (w : Nat) (ls : List RLabel) (s : RState) (ho : orderly (rStart w) ls)
    (h : rRun (rStart w) ls = some s) (t : Nat) : s.pc t ≠ .faulty := by
  let I (s : RState) : Prop := (∀ a, s.inst = some a → s.alive a = true) ∧
    ∀ t, s.pc t ≠ .faulty ∧ (s.pc t = .passed → s.inst ≠ none) ∧ (∀ x, s.pc t = .loaded x → ∃ a, x = some a ∧ s.alive a = true)
  have step : ∀ s l s', I s → (match l with | .shutdown => quiet s | .destroy _ => quiet s | _ => True) →
      rStep s l = some s' → I s' := by
    intro s l s' ⟨i1, i2⟩ hq hs
    cases l with
    | check t0 =>
      simp only [rStep] at hs
      split at hs
      · cases hs
        refine ⟨i1, fun t => ?_⟩
        by_cases ht : t = t0
        · subst ht
          simp only [RState.setPc, if_true]
          split
          · exact ⟨by simp, by simp, by simp⟩
          · next hn => exact ⟨by simp, fun _ => hn, by simp⟩
        · simp only [RState.setPc, if_neg ht]; exact i2 t
      · cases hs
    | load t0 =>
      simp only [rStep] at hs
      split at hs
      · next hp =>
        cases hs
        refine ⟨i1, fun t => ?_⟩
        by_cases ht : t = t0
        · subst ht
          simp only [RState.setPc, if_true]
          refine ⟨by simp, by simp, ?_⟩
          intro x hx
          cases hx
          have := (i2 t).2.1 hp
          cases hi : s.inst with
          | none => exact absurd hi this
          | some a => exact ⟨a, rfl, i1 a hi⟩
        · simp only [RState.setPc, if_neg ht]; exact i2 t
      · cases hs
    | call t0 =>
      simp only [rStep] at hs
      split at hs
      · next hp => obtain ⟨a, ha, _⟩ := (i2 t0).2.2 _ hp; cases ha
      · next w hp =>
        obtain ⟨a, ha, hl⟩ := (i2 t0).2.2 _ hp
        cases ha
        rw [hl] at hs
        cases hs
        refine ⟨i1, fun t => ?_⟩
        by_cases ht : t = t0
        · subst ht
          simp [RState.setPc]
        · simp only [RState.setPc, if_neg ht]; exact i2 t
      · cases hs
    | shutdown =>
      cases hs
      refine ⟨by simp, fun t => ?_⟩
      rcases hq t with hp | hp <;> simp [hp]
    | destroy w =>
      simp only [rStep] at hs
      split at hs
      · cases hs
      · next hn =>
        cases hs
        refine ⟨?_, fun t => ?_⟩
        · intro a ha
          have : a ≠ w := by rintro rfl; exact hn ha
          simp only [if_neg this]; exact i1 a ha
        · rcases hq t with hp | hp <;> simp [hp]
  have run : ∀ ls s s', I s → orderly s ls → rRun s ls = some s' → I s' := by
    intro ls
    induction ls with
    | nil => intro s s' hi _ hr; cases hr; exact hi
    | cons l ls ih =>
      intro s s' hi ho hr
      simp only [rRun] at hr
      cases hl : rStep s l with
      | none => rw [hl] at hr; cases hr
      | some u => rw [hl] at hr; exact ih u s' (step s l u hi ho.1 hl) (ho.2 u hl) hr
  have i0 : I (rStart w) := ⟨fun _ _ => rfl, fun t => by simp [rStart]⟩
  exact ((run ls _ s i0 ho h).2 t).1

/-- A LOG call by two threads, then an orderly end. -/
example : let ls : List RLabel := [.check 0, .load 0, .check 1, .load 1, .call 1, .call 0, .shutdown, .destroy 1, .check 2]
    (rRun (rStart 1) ls).isSome = true ∧ orderly (rStart 1) ls := by
  refine ⟨rfl, ?_⟩
  simp only [orderly, true_and, and_true, quiet]
  intro s1 h1 s2 h2 s3 h3 s4 h4 s5 h5 s6 h6
  cases h1; cases h2; cases h3; cases h4; cases h5; cases h6
  have : ∀ t : Nat, t = 0 ∨ t = 1 ∨ (t ≠ 0 ∧ t ≠ 1) := by intro t; omega
  refine ⟨?_, ?_⟩
  · intro t; rcases this t with h | h | ⟨h, h'⟩ <;> simp_all [rStart, RState.setPc]
  · intro s7 h7
    cases h7
    refine ⟨?_, fun s8 h8 s9 h9 => trivial⟩
    intro t; rcases this t with h | h | ⟨h, h'⟩ <;> simp_all [rStart, RState.setPc]

/-! ### C47 -/

/-- C47: a fatal event starts the hook in force exactly once, first of all, however deeply the hook nests further
fatal events (as long as it does not install itself again); and the hook is no longer in force afterwards. -/
theorem C47_once (E : Env) (d : Nat) (f : Front) (m : LogMessage) (t : Str) (n : Int) (h : Hook)
    (hh : f.hook = some h) (h0 : h.id ≠ 0) (ha : h.id ∉ actsIds h.acts) :
    started h.id (saveFatalMessage E (d + 1) f m t n).2.1 = 1 ∧
    (saveFatalMessage E (d + 1) f m t n).2.1.head? = some (.hook h.id) ∧
    ∀ k, (saveFatalMessage E (d + 1) f m t n).1.hook = some k → k.id ≠ h.id := by
  obtain ⟨a, b⟩ := saveFatal_once E d f m t n h hh h0 ha
  refine ⟨a, ?_, fun k hk => (b k hk).1⟩
  rw [saveFatal_eq, hh]
  simp only
  split <;> rfl

/-- C47: over a whole history, a hook that is set once is started exactly once if a fatal event occurs while it is in
force, and not at all before. -/
theorem C47_history (E : Env) (src : Src) (d : Nat) (f : Front) (h : Hook) (pre post : List FOp) (m : LogMessage) (t : Str)
    (n : Int) (hh : clearOf h.id f) (h0 : h.id ≠ 0) (ha : h.id ∉ actsIds h.acts)
    (hpre : ∀ op ∈ pre, ∃ m, op = .log m) (hpost : ∀ op ∈ post, h.id ∉ opIds op) :
    started h.id (fRun E src (d + 1) f (.setHook h :: pre ++ .fatal m t n :: post)).2.1 = 1 := by
  have step : ∀ (f : Front) (op : FOp), clearOf h.id f → h.id ∉ opIds op →
      started h.id (fStep E src (d + 1) f op).2.1 = 0 ∧ clearOf h.id (fStep E src (d + 1) f op).1 := by
    intro f op hc ho
    cases op with
    | log m =>
      obtain ⟨p1, _, _, _, _, p6, _⟩ := push_hook f m
      exact ⟨p6 h.id, fun k hk => hc k (by rw [← p1]; exact hk)⟩
    | init w =>
      obtain ⟨i, inst, fst, s1, s2, hook, c, ft, hd⟩ := f
      have hn : ∀ g : Front, g.hook = some nothingHook → clearOf h.id g := nothing_clear h.id h0
      show started h.id (initializeLogging src _ w).2.1 = 0 ∧ clearOf h.id (initializeLogging src _ w).1
      cases i <;> cases inst <;> cases w <;> cases s2 <;> cases fst <;>
        first
          | exact ⟨rfl, hc⟩
          | exact ⟨rfl, hn _ rfl⟩
    | shutdown => exact ⟨rfl, hc⟩
    | shutdownActive warn m w =>
      show started h.id (shutDownLoggingForActiveOnly warn m f w).1.2.1 = 0 ∧
        clearOf h.id (shutDownLoggingForActiveOnly warn m f w).1.1
      rw [sdActive_eq]
      split
      · split
        · exact ⟨rfl, hc⟩
        · cases warn <;> exact ⟨rfl, hc⟩
      · exact ⟨rfl, hc⟩
    | setHook k =>
      refine ⟨rfl, ?_⟩
      intro j hj
      cases hj
      rw [opIds, List.mem_cons, not_or] at ho
      exact ⟨fun e => ho.1 e.symm, ho.2⟩
    | setHandler k => exact ⟨rfl, hc⟩
    | fatal m t n => exact saveFatal_clear E h.id h0 (d + 1) f m t n hc
  have run : ∀ (ops : List FOp) (f : Front), clearOf h.id f → (∀ op ∈ ops, h.id ∉ opIds op) →
      started h.id (fRun E src (d + 1) f ops).2.1 = 0 := by
    intro ops
    induction ops with
    | nil => intro f _ _; rfl
    | cons op ops ih =>
      intro f hc ho
      obtain ⟨s1, s2⟩ := step f op hc (ho op (by simp))
      rw [fRun_cons]
      split
      · simp only [started_append, s1, Nat.zero_add]
        exact ih _ s2 (fun o hm => ho o (List.mem_cons_of_mem _ hm))
      · exact s1
  have main : ∀ (pre : List FOp) (f : Front), f.hook = some h → (∀ op ∈ pre, ∃ m, op = .log m) →
      started h.id (fRun E src (d + 1) f (pre ++ .fatal m t n :: post)).2.1 = 1 := by
    intro pre
    induction pre with
    | nil =>
      intro f hf _
      obtain ⟨s1, s2⟩ := saveFatal_once E d f m t n h hf h0 ha
      rw [List.nil_append, fRun_cons]
      have hst : fStep E src (d + 1) f (.fatal m t n) = saveFatalMessage E (d + 1) f m t n := rfl
      rw [hst]
      split
      · simp only [started_append, s1]
        rw [run post _ s2 hpost]
      · exact s1
    | cons op pre ih =>
      intro f hf ho
      obtain ⟨mm, rfl⟩ := ho op (by simp)
      obtain ⟨p1, _, _, p4, _, p6, _⟩ := push_hook f mm
      rw [List.cons_append, fRun_cons]
      have hst : fStep E src (d + 1) f (.log mm) = pushMessageToLogger f mm := rfl
      rw [hst, if_pos (by rw [p4]; rfl)]
      simp only [started_append, p6, Nat.zero_add]
      exact ih _ (p1.trans hf) (fun o hm => ho o (List.mem_cons_of_mem _ hm))
  rw [List.cons_append, fRun_cons]
  have hst : fStep E src (d + 1) f (.setHook h) = (setFatalPreLoggingHook f (some h), [], .ok) := rfl
  rw [hst]
  exact main pre _ rfl hpre

/-- C47: whatever fatal event is raised inside the hook (at any depth) and handed over is marked as a recursive crash,
with the stack trace of the first crash; the hook runs before the fatal message is handed over. -/
theorem C47_recursion_marked (E : Env) (d : Nat) (f : Front) (m : LogMessage) (t : Str) (n : Int) (h : Hook) (hh : f.hook = some h) :
    ∃ inner outer, (saveFatalMessage E (d + 1) f m t n).2.1 = .hook h.id :: inner ++ outer ∧
      (∀ a ∈ handed inner, Marked (f.firstTrace.getD t) a) ∧
      (∀ a ∈ handed outer, m.message ++ t <+: a.base.message ∧ a.signal = n) ∧ (handed outer).length ≤ 1 := by
  rw [saveFatal_eq, hh]
  have hin := runActs_marked (f.firstTrace.getD t) (saveFatalMessage E d) (fun f m t n => saveFatal_keeps E d f m t n)
    (fun f m t n a b => saveFatal_marked E _ d f m t n a b) h.acts (prep f t) (Nat.le_add_left 1 _) rfl
  simp only
  split
  · refine ⟨_, _, rfl, hin, ?_, ?_⟩
    · intro a ha
      rw [(fatalCall_props _ _ _).2.2 a ha]
      exact ⟨⟨_, rfl⟩, rfl⟩
    · unfold fatalCall pushFatalMessageToLogger
      split
      · split <;> simp [handed]
      · simp [handed]
  · exact ⟨_, [], by rw [List.append_nil], hin, by simp [handed], by simp [handed]⟩

/-- C47: fatal events inside a simple hook always end; two levels are enough (a nested event runs no hook). -/
theorem C47_no_runaway (E : Env) (d : Nat) (f : Front) (m : LogMessage) (t : Str) (n : Int) (h : Hook) (hh : f.hook = some h)
    (hs : simpleActs h.acts) : (saveFatalMessage E (d + 2) f m t n).2.2 ≠ .fuel := by
  have call : ∀ (f : Front) (m : FatalMessage), (fatalCall E f m).2.2 ≠ .fuel := by
    intro f m
    unfold fatalCall pushFatalMessageToLogger
    split
    · split <;> simp
    · simp only; split <;> simp
  have inner : ∀ (f : Front) m t n, f.hook = some nothingHook →
      (saveFatalMessage E (d + 1) f m t n).2.2 ≠ .fuel ∧ (saveFatalMessage E (d + 1) f m t n).1.hook = some nothingHook := by
    intro f m t n hf
    rw [saveFatal_eq, hf]
    have hr : runActs (saveFatalMessage E d) (prep f t) nothingHook.acts = (prep f t, [], .ok) := rfl
    simp only [hr, if_true]
    exact ⟨call _ _, by rw [(fatalCall_props _ _ _).1]; rfl⟩
  have acts : ∀ (as : List Act), simpleActs as → ∀ f : Front, f.hook = some nothingHook →
      (runActs (saveFatalMessage E (d + 1)) f as).2.2 ≠ .fuel := by
    intro as
    induction as with
    | nil => intro _ f _; simp [runActs]
    | cons a as ih =>
      intro hs f hf
      cases a with
      | log m =>
        unfold runActs
        exact ih hs _ ((push_hook f m).1.trans hf)
      | fatal m t n =>
        unfold runActs
        obtain ⟨i1, i2⟩ := inner f m t n hf
        simp only
        split
        · exact ih hs _ i2
        · exact i1
      | setHook id as => exact absurd hs (by simp [simpleActs])
      | throws => exact absurd hs (by simp [simpleActs])
  rw [saveFatal_eq, hh]
  simp only
  split
  · exact call _ _
  · exact acts h.acts hs (prep f t) rfl

example : let m : LogMessage := LogMessage.new false 0 1 [] 0 [] FATAL
    let h : Hook := ⟨7, [.log m, .fatal m [] 6, .setHook 8 [.fatal m [] 11], .fatal m [] 11]⟩
    h.id ≠ 0 ∧ h.id ∉ actsIds h.acts ∧ simpleActs [Act.log m, .fatal m [] 6] := by
  refine ⟨by decide, ?_, trivial⟩
  simp [actsIds, actIds]

/-- C47: a hook that logs and then leaves by an exception: the exception leaves the LOG or CHECK expression, the fatal message is
not handed over to anybody, the rest of the hook does not run, and the hook is no longer in force. -/
theorem C47_hook_throws (E : Env) (d : Nat) (f : Front) (m : LogMessage) (t : Str) (n : Int) (h : Hook) (pre post : List Act)
    (hh : f.hook = some h) (ha : h.acts = pre ++ .throws :: post) (hp : peaceful pre) :
    (saveFatalMessage E (d + 1) f m t n).2.2 = .thrown ∧
    handed (saveFatalMessage E (d + 1) f m t n).2.1 = [] ∧
    started h.id (saveFatalMessage E (d + 1) f m t n).2.1 = 1 ∧
    (saveFatalMessage E (d + 1) f m t n).1.hook = some nothingHook := by
  have key : ∀ (as : List Act), peaceful as → ∀ g : Front,
      (runActs (saveFatalMessage E d) g (as ++ .throws :: post)).2.2 = .thrown ∧
      handed (runActs (saveFatalMessage E d) g (as ++ .throws :: post)).2.1 = [] ∧
      (∀ x, started x (runActs (saveFatalMessage E d) g (as ++ .throws :: post)).2.1 = 0) ∧
      (runActs (saveFatalMessage E d) g (as ++ .throws :: post)).1.hook = g.hook := by
    intro as
    induction as with
    | nil => intro _ g; exact ⟨rfl, rfl, fun _ => rfl, rfl⟩
    | cons a as ih =>
      intro hs g
      cases a with
      | log mm =>
        obtain ⟨p1, _, _, _, p5, p6, _, _⟩ := push_hook g mm
        obtain ⟨a1, a2, a3, a4⟩ := ih hs (pushMessageToLogger g mm).1
        rw [List.cons_append]
        unfold runActs
        refine ⟨a1, ?_, fun x => ?_, a4.trans p1⟩
        · simp only [handed_append, p5, a2, List.append_nil]
        · simp only [started_append, p6, a3]
      | fatal mm tt nn => exact absurd hs (by simp [peaceful])
      | setHook id as => exact absurd hs (by simp [peaceful])
      | throws => exact absurd hs (by simp [peaceful])
  rw [saveFatal_eq, hh]
  obtain ⟨a1, a2, a3, a4⟩ := key pre hp (prep f t)
  simp only [ha, a1]
  rw [if_neg (by decide)]
  refine ⟨rfl, ?_, ?_, a4⟩
  · rw [cons_eq, handed_append, a2]; rfl
  · rw [cons_eq, started_append, a3]; simp [started]

example : (⟨7, [.log (LogMessage.new false 0 1 [] 0 [] INFO), .throws]⟩ : Hook).acts =
    [.log (LogMessage.new false 0 1 [] 0 [] INFO)] ++ .throws :: [] ∧ peaceful [.log (LogMessage.new false 0 1 [] 0 [] INFO)] := ⟨rfl, trivial⟩

/-! ### C48 -/

/-- C48 is false: in a program that has never initialised logging nor set a hook, a fatal event ends in
`std::bad_function_call`, with nothing printed and no exit by the signal. -/
theorem C48_negation (E : Env) (src : Src) (d : Nat) (pre : List FOp) (m : LogMessage) (t : Str) (n : Int)
    (h1 : calm pre) (h2 : noInit pre) (h3 : ∀ h, FOp.setHook h ∉ pre) :
    fStep E src (d + 1) (fRun E src (d + 1) Front.start pre).1 (.fatal m t n) =
      (prep (fRun E src (d + 1) Front.start pre).1 t, [], .badCall) := by
  have key : ∀ (ops : List FOp), calm ops → noInit ops → (∀ h, FOp.setHook h ∉ ops) → ∀ f : Front, f.hook = none →
      (fRun E src (d + 1) f ops).1.hook = none := by
    intro ops
    induction ops with
    | nil => intro _ _ _ f hf; exact hf
    | cons op ops ih =>
      intro hc hi hs f hf
      have hs' : ∀ h, FOp.setHook h ∉ ops := fun h hm => hs h (List.mem_cons_of_mem _ hm)
      have hstep : (fStep E src (d + 1) f op).1.hook = none := by
        cases op with
        | log m => exact (push_hook f m).1.trans hf
        | init w => exact absurd (by simp) (hi w)
        | shutdown => exact hf
        | shutdownActive warn m w =>
          show (shutDownLoggingForActiveOnly warn m f w).1.1.hook = none
          rw [sdActive_eq]
          split
          · split <;> exact hf
          · exact hf
        | setHook k => exact absurd (by simp) (hs k)
        | setHandler k => exact hf
        | fatal m t n => exact absurd (by simp) (hc m t n)
      rw [fRun_cons]
      split
      · exact ih (calm_tail hc) (noInit_tail hi) hs' _ hstep
      · exact hstep
  show saveFatalMessage E (d + 1) _ m t n = _
  rw [saveFatal_eq, key pre h1 h2 h3 Front.start rfl]

/-- C48, what follows: a program that catches this exception goes on as if nothing had happened: it can initialise logging, and the
messages logged then reach the worker after the one kept from before; the fatal message itself is lost. -/
theorem C48_lost (E : Env) (src : Src) (d : Nat) (pre post : List FOp) (m : LogMessage) (t : Str) (n : Int) (w : Nat)
    (h1 : calm pre) (h2 : noInit pre) (h3 : ∀ h, FOp.setHook h ∉ pre) (h4 : calm post) :
    saves (fRun E src (d + 1) Front.start (pre ++ .fatal m t n :: .init (some w) :: post)).2.1 =
      ((firstLog pre).toList.map fun m => (w, keptForm m)) ++ deliveries (some w) post ∧
    handed (fRun E src (d + 1) Front.start (pre ++ .fatal m t n :: .init (some w) :: post)).2.1 = [] := by
  have hneg := C48_negation E src d pre m t n h1 h2 h3
  obtain ⟨a, b, c, e, g⟩ := pre_run E src (d + 1) pre h1 h2 Front.start rfl (fun _ => rfl)
  have hpre : handed (fRun E src (d + 1) Front.start pre).2.1 = [] := by
    rw [C10_stderr E src (d + 1) pre h1 h2]; cases firstLog pre <;> rfl
  have hcalm : ∀ (ops : List FOp), calm ops → ∀ f : Front, handed (fRun E src (d + 1) f ops).2.1 = [] := by
    intro ops
    induction ops with
    | nil => intro _ f; rfl
    | cons op ops ih =>
      intro hc f
      have hs : handed (fStep E src (d + 1) f op).2.1 = [] := by
        cases op with
        | log m => exact (push_hook f m).2.2.2.2.1
        | init w =>
          show handed (initializeLogging src f w).2.1 = []
          unfold initializeLogging
          have e1 : handed (if f.installed = true then [] else [Eff.install]) = [] := by split <;> rfl
          dsimp only
          split
          · rw [handed_append, e1, List.nil_append]
            split
            · rfl
            · split <;> rfl
          · rw [handed_append, e1]; rfl
        | shutdown => rfl
        | shutdownActive warn m w =>
          show handed (shutDownLoggingForActiveOnly warn m f w).1.2.1 = []
          rw [sdActive_eq]
          split
          · split
            · rfl
            · dsimp only; split <;> rfl
          · rfl
        | setHook k => rfl
        | setHandler k => rfl
        | fatal m t n => exact absurd (by simp) (hc m t n)
      rw [fRun_cons]
      split
      · dsimp only; rw [handed_append, hs, ih (calm_tail hc)]; rfl
      · exact hs
  rw [fRun_append_ok E src (d + 1) pre _ _ a]
  simp only [saves_append, handed_append, c, hpre, List.nil_append]
  generalize hf : (fRun E src (d + 1) Front.start pre).1 = f at *
  have g' : f.first = (firstLog pre).map keptForm := g
  rw [fRun_cons, hneg, if_pos (by rfl)]
  simp only [List.nil_append]
  constructor
  · have hst : fStep E src (d + 1) (prep f t) (.init (some w)) = initializeLogging src (prep f t) (some w) := rfl
    have hin : (initializeLogging src (prep f t) (some w)).2.2 = .ok ∧
        saves (initializeLogging src (prep f t) (some w)).2.1 = (f.first.toList.map fun m => (w, m)) ∧
        (initializeLogging src (prep f t) (some w)).1.inst = some w ∧ (initializeLogging src (prep f t) (some w)).1.saveOnce = true := by
      have b' : f.inst = none := b
      have e' : f.saveOnce = false := e
      have hinst : saves (if f.installed = true then [] else [Eff.install]) = [] := by split <;> rfl
      unfold initializeLogging
      simp only [prep, b', e', Bool.false_eq_true, if_false]
      refine ⟨trivial, ?_, trivial, trivial⟩
      rw [saves_append, hinst]
      cases f.first <;> rfl
    rw [fRun_cons, hst, if_pos (by rw [hin.1]; rfl)]
    simp only [saves_append]
    rw [hin.2.1, post_run E src (d + 1) post h4 _ hin.2.2.2, hin.2.2.1, g']
    cases firstLog pre <;> rfl
  · exact hcalm _ (by intro m t n hm; rcases List.mem_cons.1 hm with hm | hm; cases hm; exact h4 _ _ _ hm) _

/-- C48 (partial: only if a hook has been set, or logging had been initialised and shut down before): with no active worker
and the library's own exit handler, a fatal event prints cause and message to stderr and exits with its signal. The hook
must not itself raise a fatal event. -/
theorem C48_report_partial (E : Env) (d : Nat) (f : Front) (m : LogMessage) (t : Str) (n : Int) (h : Hook)
    (hh : f.hook = some h) (hp : peaceful h.acts) (hi : f.inst = none) (hd : f.handler = .default) (hc : f.counter = 0)
    (hl : Char.ofNat 0 ∉ m.level.text) :
    (saveFatalMessage E (d + 1) f m t n).2.2 = .exitSignal n ∧
    (saveFatalMessage E (d + 1) f m t n).2.1.getLast? =
      some (.err ("FATAL CALL but logger is NOT initialized\nCAUSE: ".toList ++ exitReasonName m.level n ++ "\nMessage: \n".toList ++
        (toString E { m with message := m.message ++ t } .default).1)) := by
  rw [saveFatal_eq, hh]
  obtain ⟨a, b, c, e, g⟩ := peaceful_run (saveFatalMessage E d) h.acts hp (prep f t)
  simp only [a, if_true]
  have e' : (runActs (saveFatalMessage E d) (prep f t) h.acts).1.inst = none := e.trans hi
  have g' : (runActs (saveFatalMessage E d) (prep f t) h.acts).1.handler = .default := g.trans hd
  have b' : (runActs (saveFatalMessage E d) (prep f t) h.acts).1.counter = 1 := by rw [b]; show f.counter + 1 = 1; rw [hc]
  have hm : FatalMessage.new (fatalText m t (f.firstTrace.getD t) 1) n = ⟨{ m with message := m.message ++ t }, n⟩ := by
    unfold FatalMessage.new fatalText LogMessage.copy Level.copy
    simp [cstr_eq_self hl]
  rw [b', hm]
  unfold fatalCall
  rw [g']
  simp only
  unfold pushFatalMessageToLogger
  rw [e']
  refine ⟨rfl, ?_⟩
  rw [List.getLast?_append_of_ne_nil _ (by simp)]
  simp only [List.getLast?_singleton]
  congr 2

/-- C48: the two situations covered: a hook set by hand, and the state after initialisation and shut-down. -/
example : let E : Env := ⟨fun _ => [], fun _ => [], fun _ _ => []⟩
    let f := (fRun E ⟨[], []⟩ 1 Front.start [.init (some 1), .shutdown]).1
    f.hook = some nothingHook ∧ peaceful nothingHook.acts ∧ f.inst = none ∧ f.handler = .default ∧ f.counter = 0 :=
  ⟨rfl, trivial, rfl, rfl, rfl⟩

/-! ### C49 -/

/-- Text and signal of the fatal messages that reach the user's exit handler. -/
def handlerGot (es : List Eff) : List (Str × Int) :=
  es.filterMap fun | .handler m => some (m.base.message, m.signal) | _ => none

theorem handlerGot_append (a b : List Eff) : handlerGot (a ++ b) = handlerGot a ++ handlerGot b := by simp [handlerGot]

theorem push_handlerGot (f : Front) (m : LogMessage) : handlerGot (pushMessageToLogger f m).2.1 = [] := by
  unfold pushMessageToLogger
  cases f.inst with
  | none => simp only; split <;> rfl
  | some w => rfl

theorem fatalEntry_eq (m : LogMessage) (t first : Str) (c : Nat) :
    (fatalText m t first c).message = fatalEntry m t first (decide (c > 1)) := by
  unfold fatalText fatalEntry recursiveText
  by_cases h : c > 1
  · simp [h]
  · simp [h]

/-- One fatal event with a handler that returns and a simple hook. -/
theorem simple_event (E : Env) (d : Nat) (f : Front) (m : LogMessage) (t : Str) (n : Int) (h : Hook) (hh : f.hook = some h)
    (hs : simpleActs h.acts) (hc : f.handler = .custom true) :
    (saveFatalMessage E (d + 2) f m t n).2.2 = .ok ∧
    (saveFatalMessage E (d + 2) f m t n).1.hook = some nothingHook ∧
    (saveFatalMessage E (d + 2) f m t n).1.handler = .custom true ∧
    (saveFatalMessage E (d + 2) f m t n).1.inst = f.inst ∧
    (saveFatalMessage E (d + 2) f m t n).1.firstTrace = some (f.firstTrace.getD t) ∧
    (saveFatalMessage E (d + 2) f m t n).1.counter = f.counter + (raisedBy h.acts).length + 1 ∧
    handlerGot (saveFatalMessage E (d + 2) f m t n).2.1 =
      (raisedBy h.acts).map (fun x => (fatalEntry x.1 x.2.1 (f.firstTrace.getD t) true, x.2.2)) ++
      [(fatalEntry m t (f.firstTrace.getD t) (decide (f.counter + (raisedBy h.acts).length ≥ 1)), n)] := by
  have call : ∀ (g : Front) (fm : FatalMessage), g.handler = .custom true → fatalCall E g fm = (g, [.handler fm], .ok) := by
    intro g fm hg; unfold fatalCall; rw [hg]; rfl
  have inner : ∀ (g : Front) (m : LogMessage) (t first : Str) (n : Int), g.hook = some nothingHook → g.handler = .custom true →
      g.firstTrace = some first → 1 ≤ g.counter →
      saveFatalMessage E (d + 1) g m t n =
        ({ g with counter := g.counter + 1 }, [.hook 0, .handler (FatalMessage.new (fatalText m t first 2) n)], .ok) := by
    intro g m t first n h1 h2 h3 h4
    rw [saveFatal_eq, h1]
    have hr : runActs (saveFatalMessage E d) (prep g t) nothingHook.acts = (prep g t, [], .ok) := rfl
    have hp : prep g t = { g with counter := g.counter + 1 } := by
      unfold prep; rw [h3]; obtain ⟨i, inst, fst, s1, s2, hook, c, ft, hd⟩ := g; cases h1; cases h3; rfl
    have hw : fatalText m t (g.firstTrace.getD t) (g.counter + 1) = fatalText m t first 2 := by
      unfold fatalText; rw [if_pos (by omega), if_pos (by omega), h3]; rfl
    have hpc : (prep g t).counter = g.counter + 1 := rfl
    simp only [hr, if_true, hpc, hw]
    rw [call (prep g t) _ h2, hp]
    simp only [h1]
    rfl
  have acts : ∀ (as : List Act), simpleActs as → ∀ (g : Front) (first : Str), g.hook = some nothingHook → g.handler = .custom true →
      g.firstTrace = some first → 1 ≤ g.counter →
      (runActs (saveFatalMessage E (d + 1)) g as).2.2 = .ok ∧
      (runActs (saveFatalMessage E (d + 1)) g as).1.hook = some nothingHook ∧
      (runActs (saveFatalMessage E (d + 1)) g as).1.handler = .custom true ∧
      (runActs (saveFatalMessage E (d + 1)) g as).1.inst = g.inst ∧
      (runActs (saveFatalMessage E (d + 1)) g as).1.firstTrace = some first ∧
      (runActs (saveFatalMessage E (d + 1)) g as).1.counter = g.counter + (raisedBy as).length ∧
      handlerGot (runActs (saveFatalMessage E (d + 1)) g as).2.1 =
        (raisedBy as).map (fun x => (fatalEntry x.1 x.2.1 first true, x.2.2)) := by
    intro as
    induction as with
    | nil => intro _ g first h1 h2 h3 _; exact ⟨rfl, h1, h2, rfl, h3, rfl, rfl⟩
    | cons a as ih =>
      intro hs g first h1 h2 h3 h4
      cases a with
      | log mm =>
        obtain ⟨p1, p2, p3, _, _, _, p7, p8⟩ := push_hook g mm
        obtain ⟨a1, a2, a3, ai, a4, a5, a6⟩ := ih hs (pushMessageToLogger g mm).1 first (p1.trans h1) (p8.trans h2) (p3.trans h3) (by rw [p2]; exact h4)
        unfold runActs
        refine ⟨a1, a2, a3, ai.trans p7, a4, by simp only [a5, p2]; rfl, ?_⟩
        simp only [handlerGot_append, push_handlerGot, a6, List.nil_append]
        rfl
      | fatal mm tt nn =>
        unfold runActs
        rw [inner g mm tt first nn h1 h2 h3 h4]
        simp only [if_true]
        obtain ⟨a1, a2, a3, ai, a4, a5, a6⟩ := ih hs { g with counter := g.counter + 1 } first h1 h2 h3 (Nat.le_add_left 1 _)
        refine ⟨a1, a2, a3, ai, a4, by rw [a5, raisedBy, List.length_cons]; simp only; omega, ?_⟩
        rw [handlerGot_append, a6, raisedBy, List.map_cons]
        show [((fatalText mm tt first 2).message, nn)] ++ _ = _
        rw [fatalEntry_eq]
        rfl
      | setHook id as => exact absurd hs (by simp [simpleActs])
      | throws => exact absurd hs (by simp [simpleActs])
  rw [saveFatal_eq, hh]
  obtain ⟨a1, a2, a3, ai, a4, a5, a6⟩ := acts h.acts hs (prep f t) (f.firstTrace.getD t) rfl hc rfl (Nat.le_add_left 1 _)
  have a5' : (runActs (saveFatalMessage E (d + 1)) (prep f t) h.acts).1.counter = f.counter + (raisedBy h.acts).length + 1 := by
    rw [a5]; simp only [prep]; omega
  simp only [a1, if_true]
  rw [call _ _ a3, a5']
  refine ⟨rfl, a2, a3, ai, a4, by first | rfl | exact a5', ?_⟩
  rw [List.cons_append, cons_eq, handlerGot_append, handlerGot_append, a6]
  show [] ++ (_ ++ [((fatalText m t _ _).message, n)]) = _
  rw [fatalEntry_eq, List.nil_append]
  have : decide (f.counter + (raisedBy h.acts).length + 1 > 1) = decide (f.counter + (raisedBy h.acts).length ≥ 1) := by
    congr 1; apply propext; omega
  rw [this]

/-- C49, what happens exactly: over every history of calls (messages, hooks, fatal events, shut-downs and further
initialisations), with an exit handler that returns, a fatal message is flagged iff some other fatal event has happened
since the last initialisation, be it earlier and finished, or raised by this event's own hook. -/
theorem C49_exact (E : Env) (src : Src) (d : Nat) (ops : List FOp) (hs : simpleOps ops) (f : Front) (h : Hook)
    (hh : f.hook = some h) (ha : simpleActs h.acts) (hc : f.handler = .custom true) :
    handlerGot (fRun E src (d + 2) f ops).2.1 = handlerSees f.inst f.counter f.firstTrace h.acts ops := by
  induction ops generalizing f h with
  | nil => rfl
  | cons op ops ih =>
    have hs' : simpleOps ops := fun o hm => hs o (List.mem_cons_of_mem _ hm)
    have h1 := hs op (by simp)
    rw [fRun_cons]
    cases op with
    | log m =>
      obtain ⟨p1, p2, p3, p4, _, _, p7, p8⟩ := push_hook f m
      have hst : fStep E src (d + 2) f (.log m) = pushMessageToLogger f m := rfl
      rw [hst, if_pos (by rw [p4]; rfl)]
      simp only [handlerGot_append, push_handlerGot, List.nil_append]
      rw [ih hs' _ h (p1.trans hh) ha (p8.trans hc), p2, p3, p7]
      rfl
    | setHook k => exact ih hs' (setFatalPreLoggingHook f (some k)) k rfl h1 hc
    | fatal m t n =>
      obtain ⟨a1, a2, a3, ai, a4, a5, a6⟩ := simple_event E d f m t n h hh ha hc
      have hst : fStep E src (d + 2) f (.fatal m t n) = saveFatalMessage E (d + 2) f m t n := rfl
      rw [hst, if_pos (by rw [a1]; rfl)]
      simp only [handlerGot_append, a6]
      rw [ih hs' _ nothingHook a2 trivial a3, ai, a4, a5, List.append_assoc]
      rfl
    | init w =>
      have hst : fStep E src (d + 2) f (.init w) = initializeLogging src f w := rfl
      rw [hst]
      have bad : ∀ (e : List Eff) (t : Str), e = [] ∨ e = [.install] → handlerGot (e ++ [.err t]) = [] := by
        rintro e t (rfl | rfl) <;> rfl
      have hins : (if f.installed then ([] : List Eff) else [.install]) = [] ∨
          (if f.installed then ([] : List Eff) else [.install]) = [.install] := by cases f.installed <;> simp
      unfold initializeLogging handlerSees
      cases hi : f.inst with
      | some a =>
        simp only [hi]
        generalize (if f.installed = true then ([] : List Eff) else [.install]) = e at hins ⊢
        rw [if_neg (by simp [Stat.goesOn]), if_neg (by simp)]
        exact bad _ _ hins
      | none =>
        cases w with
        | none =>
          simp only [hi]
          generalize (if f.installed = true then ([] : List Eff) else [.install]) = e at hins ⊢
          rw [if_neg (by simp [Stat.goesOn]), if_neg (by simp)]
          exact bad _ _ hins
        | some w =>
          simp only [hi, Stat.goesOn, if_true, Option.isSome_some, and_self, handlerGot_append]
          rw [ih hs' _ nothingHook rfl trivial (by dsimp only; split <;> exact hc)]
          have e1 : handlerGot (if f.installed = true then [] else [Eff.install]) = [] := by split <;> rfl
          rw [e1, List.nil_append]
          refine (congrArg (· ++ _) (?_ : _ = [])).trans ?_
          · split
            · rfl
            · split <;> rfl
          rw [List.nil_append]
          dsimp only
          congr 1
          split <;> rfl
    | shutdown => exact ih hs' (shutDownLogging f) h hh ha hc
    | shutdownActive warn m w =>
      have hst : fStep E src (d + 2) f (.shutdownActive warn m w) = (shutDownLoggingForActiveOnly warn m f w).1 := rfl
      rw [hst, sdActive_eq]
      unfold handlerSees
      cases hi : f.inst with
      | none =>
        simp only [Stat.goesOn, if_true, List.nil_append]
        rw [ih hs' (shutDownLogging f) h hh ha hc]
        simp [shutDownLogging]
      | some a =>
        cases w with
        | none =>
          simp only [Stat.goesOn, if_true, List.nil_append]
          rw [ih hs' (shutDownLogging f) h hh ha hc]
          simp [shutDownLogging]
        | some b =>
          by_cases hab : a = b
          · simp only [hab, Stat.goesOn, if_true, List.nil_append]
            rw [ih hs' (shutDownLogging f) h hh ha hc]
            simp [shutDownLogging]
          · simp only [if_neg hab, Stat.goesOn, if_true, handlerGot_append]
            rw [ih hs' f h hh ha hc, hi]
            have e1 : handlerGot (if warn = true then [Eff.save a m] else []) = [] := by split <;> rfl
            rw [e1, List.nil_append]
            simp [hab]
    | setHandler k =>
      have hk : k = .custom true := h1
      subst hk
      exact ih hs' (setFatalExitHandler f (.custom true)) h hh ha rfl

/-- The history of a program with two lives: in the second one the first fatal event is not flagged. -/
example : simpleOps [.init (some 1), .fatal (LogMessage.new false 0 1 [] 0 [] FATAL) [] 6, .shutdown, .init (some 2),
      .fatal (LogMessage.new false 0 1 [] 0 [] FATAL) ['x'] 11] ∧
    handlerSees none 0 none [] [.init (some 1), .fatal (LogMessage.new false 0 1 [] 0 [] FATAL) [] 6, .shutdown, .init (some 2),
      .fatal (LogMessage.new false 0 1 [] 0 [] FATAL) ['x'] 11] = [([], 6), (['x'], 11)] :=
  ⟨by intro op h; simp at h; rcases h with rfl | rfl | rfl | rfl | rfl <;> trivial, rfl⟩

/-- C49 (partial: only the first fatal event after initialisation, and only if its hook raises none): it is not flagged. -/
theorem C49_first_partial (E : Env) (d : Nat) (f : Front) (m : LogMessage) (t : Str) (n : Int) (h : Hook)
    (hh : f.hook = some h) (hp : peaceful h.acts) (hc : f.counter = 0) :
    ∀ a ∈ handed (saveFatalMessage E (d + 1) f m t n).2.1, a.base.message = m.message ++ t := by
  rw [saveFatal_eq, hh]
  obtain ⟨a, b, c, _⟩ := peaceful_run (saveFatalMessage E d) h.acts hp (prep f t)
  simp only [a, if_true]
  intro x hx
  rw [List.cons_append, cons_eq, handed_append, handed_append, c, List.nil_append] at hx
  have hx' := (fatalCall_props _ _ _).2.2 x ((List.mem_append.1 hx).resolve_left (by simp [handed]))
  rw [hx', b]
  show m.message ++ t ++ (if f.counter + 1 > 1 then _ else []) = _
  rw [hc, if_neg (by decide), List.append_nil]

/-- C49 is false: of two fatal events in a row (the first one finished, no hook involved) the second is flagged; and an event
whose hook raised another one is flagged itself. In both cases no other fatal message was being prepared when the
event was raised. -/
theorem C49_negation : ∃ (E : Env) (src : Src) (m : LogMessage) (hook : Hook), simpleActs hook.acts ∧
    handlerGot (fRun E src 2 Front.start [.init (some 1), .setHandler (.custom true), .fatal m [] 6, .fatal m [] 6]).2.1 =
      [(fatalEntry m [] [] false, 6), (fatalEntry m [] [] true, 6)] ∧
    handlerGot (fRun E src 2 Front.start [.init (some 1), .setHandler (.custom true), .setHook hook, .fatal m [] 6]).2.1 =
      [(fatalEntry m [] [] true, 11), (fatalEntry m [] [] true, 6)] ∧ fatalEntry m [] [] true ≠ fatalEntry m [] [] false := by
  refine ⟨⟨fun _ => [], fun _ => [], fun _ _ => []⟩, ⟨[], []⟩, LogMessage.new false 0 1 [] 0 [] FATAL,
    ⟨7, [.fatal (LogMessage.new false 0 1 [] 0 [] FATAL) [] 11]⟩, trivial, ?_, ?_, ?_⟩
  · generalize LogMessage.new false 0 1 [] 0 [] FATAL = m
    show handlerGot (fRun _ _ 2 (setFatalExitHandler (initializeLogging ⟨[], []⟩ Front.start (some 1)).1 (.custom true)) [.fatal m [] 6, .fatal m [] 6]).2.1 = _
    rw [C49_exact _ _ 0 _ (by intro op hop; simp at hop; subst hop; trivial) _ nothingHook rfl trivial rfl]
    rfl
  · generalize LogMessage.new false 0 1 [] 0 [] FATAL = m
    show handlerGot (fRun _ _ 2 (setFatalExitHandler (initializeLogging ⟨[], []⟩ Front.start (some 1)).1 (.custom true)) [.setHook ⟨7, [.fatal m [] 11]⟩, .fatal m [] 6]).2.1 = _
    rw [C49_exact _ _ 0 _ (by intro op hop; simp at hop; rcases hop with rfl | rfl <;> trivial) _ nothingHook rfl trivial rfl]
    rfl
  · intro h
    unfold fatalEntry at h
    rw [if_pos rfl, if_neg (by simp)] at h
    have h2 := List.append_cancel_left h
    rw [List.append_eq_nil_iff] at h2
    exact absurd h2.2 (by decide)

/-! ### C53 -/

/-- C53: the entry that reaches the sinks for a fatal event: the user's text, the stack trace, (for a flagged event the
warning,) the level's name and the reason, in this order. `c` is the capture of the LOG/CHECK expression or of the signal
handler. -/
theorem C53_text (E : Env) (d : Nat) (f : Front) (full : Bool) (now : Int) (tid w : Nat) (file fn expr dump : Str) (line sig : Int)
    (level : Level) (hf : wasFatal level = true) (size : Nat) (hs : 1 ≤ size) (is : List Ins) (h : Hook) (hh : f.hook = some h)
    (hp : peaceful h.acts) (hi : f.inst = some w) (hd : f.handler = .default) :
    ∃ c trace m fm, (LogCapture.new file line fn level expr sig dump).insertAll size is = .ok c ∧
      c.destroy full now tid = .fatal trace m sig ∧
      (saveFatalMessage E (d + 1) f m trace sig).2.2 = .blocked ∧
      (saveFatalMessage E (d + 1) f m trace sig).2.1.getLast? = some (.fatal w fm) ∧ fm.signal = sig ∧
      (bgFatalMessage fm).level = ⟨level.value, cstr level.text⟩ ∧ (bgFatalMessage fm).expression = expr ∧
      (bgFatalMessage fm).message =
        cstr (is.flatMap (insText size)) ++ cstr ("\n*******\tSTACKDUMP *******\n".toList ++ dump) ++
        (if f.counter ≥ 1 then recursiveText (f.firstTrace.getD (cstr ("\n*******\tSTACKDUMP *******\n".toList ++ dump))) else []) ++
        "\nExiting after fatal event  (".toList ++ cstr level.text ++ "). Fatal type:  ".toList ++
        exitReasonName ⟨level.value, cstr level.text⟩ sig ++ "\nLog content flushed successfully to sink\n\n".toList := by
  obtain ⟨c, hc, hdst⟩ := C54_text size hs full now tid file fn expr dump line sig level is
  have hv : 1000 ≤ level.value := (show wasFatal level = decide (1000 ≤ level.value) from rfl) ▸ hf |> of_decide_eq_true
  simp only [if_pos hv] at hdst
  generalize hM : (LogMessage.mk _ _ _ _ _ _ _ _ _ _) = M at hdst
  generalize hT : cstr ("\n*******\tSTACKDUMP *******\n".toList ++ dump) = T at hdst ⊢
  refine ⟨c, T, M, FatalMessage.new (fatalText M T (f.firstTrace.getD T) (f.counter + 1)) sig, hc, hdst, ?_⟩
  rw [saveFatal_eq, hh]
  obtain ⟨a, b, _, e, g⟩ := peaceful_run (saveFatalMessage E d) h.acts hp (prep f T)
  simp only [a, if_true]
  have e' : (runActs (saveFatalMessage E d) (prep f T) h.acts).1.inst = some w := e.trans hi
  have g' : (runActs (saveFatalMessage E d) (prep f T) h.acts).1.handler = .default := g.trans hd
  have b' : (runActs (saveFatalMessage E d) (prep f T) h.acts).1.counter = f.counter + 1 := b
  rw [b']
  unfold fatalCall
  rw [g']
  simp only
  unfold pushFatalMessageToLogger
  rw [e']
  subst hM
  have hl : ∀ v, Level.copy ⟨v, cstr level.text⟩ = ⟨v, cstr level.text⟩ := by
    intro v; unfold Level.copy; rw [cstr_eq_self (cstr_nul_free _)]
  refine ⟨rfl, ?_, rfl, ?_, rfl, ?_⟩
  · rw [List.getLast?_append_of_ne_nil _ (by simp)]; rfl
  · simp only [bgFatalMessage, FatalMessage.new, fatalText, LogMessage.copy, hl]
  · simp only [bgFatalMessage, FatalMessage.new, fatalText, LogMessage.copy, hl, FatalMessage.reason]
    have hif : (if f.counter + 1 > 1 then recursiveText (f.firstTrace.getD T) else []) =
        (if f.counter ≥ 1 then recursiveText (f.firstTrace.getD T) else []) := by
      by_cases hc1 : f.counter ≥ 1
      · rw [if_pos hc1, if_pos (by omega)]
      · rw [if_neg hc1, if_neg (by omega)]
    rw [hif]
    have hlit : "). Fatal type:  ".toList = "). ".toList ++ "Fatal type: ".toList ++ " ".toList := rfl
    rw [hlit]
    simp only [List.append_assoc]

example : let f := (fRun ⟨fun _ => [], fun _ => [], fun _ _ => []⟩ ⟨[], []⟩ 1 Front.start [.init (some 1)]).1
    f.hook = some nothingHook ∧ peaceful nothingHook.acts ∧ f.inst = some 1 ∧ f.handler = .default ∧ wasFatal FATAL = true :=
  ⟨rfl, trivial, rfl, rfl, by decide⟩

/-- A fatal message is handed over to a worker or to the handler of the client. -/
example (w : Nat) (m m' : FatalMessage) (l : LogMessage) (t : Str) : handed [.install, .fatal w m, .save w l, .handler m', .hook 3, .err t] = [m, m'] := rfl

end G3.Props
