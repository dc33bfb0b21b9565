import Verif.Spec.FrontExact
import Verif.Props.Front
/-
C48, exactly: a fatal event in a program that has not initialised logging.
-/
namespace G3.Props
open G3 G3.Spec

theorem before_init_state (E : Env) (src : Src) (d : Nat) (ops : List FOp) (hc : calm ops) (hi : noInit ops) (f : Front)
    (h0 : f.inst = none) :
    (fRun E src d f ops).1.inst = none ∧ (fRun E src d f ops).1.counter = f.counter ∧
    (fRun E src d f ops).1.firstTrace = f.firstTrace ∧ (fRun E src d f ops).1.hook = hookSet f.hook ops ∧
    (fRun E src d f ops).1.handler = handlerSet f.handler ops := by
  induction ops generalizing f with
  | nil => exact ⟨h0, rfl, rfl, rfl, rfl⟩
  | cons op ops ih =>
    have hc' := calm_tail hc
    have hi' := noInit_tail hi
    cases op with
    | log m =>
      rw [fRun_cons]
      have hst : fStep E src d f (.log m) = pushMessageToLogger f m := rfl
      rw [hst]
      unfold pushMessageToLogger
      rw [h0]
      cases hs : f.setOnce with
      | true => simp only [if_true, Stat.goesOn]; exact ih hc' hi' f h0
      | false =>
        simp only [Bool.false_eq_true, if_false, Stat.goesOn, if_true]
        exact ih hc' hi' { f with inst := none, setOnce := true, first := _ } rfl
    | init w => exact absurd (by simp) (hi w)
    | shutdown => exact ih hc' hi' { f with inst := none } rfl
    | shutdownActive warn m w =>
      rw [fRun_cons]
      have hst : fStep E src d f (.shutdownActive warn m w) = ({ f with inst := none }, [], .ok) := by
        show (shutDownLoggingForActiveOnly warn m f w).1 = _
        unfold shutDownLoggingForActiveOnly
        rw [if_neg (by rw [h0]; simp)]
        rfl
      rw [hst]
      simp only [Stat.goesOn, if_true]
      exact ih hc' hi' { f with inst := none } rfl
    | setHook hk => exact ih hc' hi' (setFatalPreLoggingHook f (some hk)) h0
    | setHandler hk => exact ih hc' hi' (setFatalExitHandler f hk) h0
    | fatal m t n => exact absurd (by simp) (hc m t n)

/-- The event itself, with no worker. -/
theorem lonely_event (E : Env) (d : Nat) (f : Front) (m : LogMessage) (t : Str) (n : Int) (h : Hook) (hh : f.hook = some h)
    (hp : peaceful h.acts) (hi : f.inst = none) (hl : Char.ofNat 0 ∉ m.level.text) :
    ∃ es, (saveFatalMessage E (d + 1) f m t n).2 =
      (.hook h.id :: es ++ [(lonelyEnd E f.handler { m with message := m.message ++ t ++
          (if f.counter = 0 then [] else recursiveText (f.firstTrace.getD t)) } n).1],
        (lonelyEnd E f.handler { m with message := m.message ++ t ++
          (if f.counter = 0 then [] else recursiveText (f.firstTrace.getD t)) } n).2) := by
  rw [saveFatal_eq, hh]
  obtain ⟨a, b, c, e, g⟩ := peaceful_run (saveFatalMessage E d) h.acts hp (prep f t)
  simp only [a, if_true]
  have e' : (runActs (saveFatalMessage E d) (prep f t) h.acts).1.inst = none := e.trans hi
  have g' : (runActs (saveFatalMessage E d) (prep f t) h.acts).1.handler = f.handler := g
  have hm : FatalMessage.new (fatalText m t (f.firstTrace.getD t) (f.counter + 1)) n =
      ⟨{ m with message := m.message ++ t ++ (if f.counter = 0 then [] else recursiveText (f.firstTrace.getD t)) }, n⟩ := by
    have hc : (if f.counter + 1 > 1 then recursiveText (f.firstTrace.getD t) else []) =
        (if f.counter = 0 then [] else recursiveText (f.firstTrace.getD t)) := by
      by_cases h0 : f.counter = 0
      · rw [if_pos h0, if_neg (by omega)]
      · rw [if_neg h0, if_pos (by omega)]
    unfold FatalMessage.new fatalText LogMessage.copy Level.copy
    rw [hc]
    simp [cstr_eq_self hl]
  have b' : (runActs (saveFatalMessage E d) (prep f t) h.acts).1.counter = f.counter + 1 := b
  rw [b', hm]
  refine ⟨(runActs (saveFatalMessage E d) (prep f t) h.acts).2.1, ?_⟩
  generalize (runActs (saveFatalMessage E d) (prep f t) h.acts).2.1 = es
  generalize { m with message := m.message ++ t ++ (if f.counter = 0 then [] else recursiveText (f.firstTrace.getD t)) } = m1
  unfold fatalCall lonelyEnd
  rw [g']
  cases f.handler with
  | default =>
    dsimp only
    unfold pushFatalMessageToLogger
    rw [e']
    rfl
  | custom ret => cases ret <;> rfl

/-- C48, exactly, for every history without initialisation and without an earlier fatal event: with no hook set, the
event ends in `std::bad_function_call` and does nothing visible; with a hook that neither fails nor raises a fatal
event, the hook runs, then the report is printed and the process ends by the signal (or the program's own exit handler
gets the message). -/
theorem C48_exact (E : Env) (src : Src) (d : Nat) (pre : List FOp) (m : LogMessage) (t : Str) (n : Int)
    (h1 : calm pre) (h2 : noInit pre) (hl : Char.ofNat 0 ∉ m.level.text) :
    match hookSet none pre with
    | none => (fStep E src (d + 1) (fRun E src (d + 1) Front.start pre).1 (.fatal m t n)).2 = ([], .badCall)
    | some h => peaceful h.acts → ∃ es,
        (fStep E src (d + 1) (fRun E src (d + 1) Front.start pre).1 (.fatal m t n)).2 =
          (.hook h.id :: es ++ [(lonelyEnd E (handlerSet .default pre) { m with message := m.message ++ t } n).1],
            (lonelyEnd E (handlerSet .default pre) { m with message := m.message ++ t } n).2) := by
  obtain ⟨a, b, c, e, g⟩ := before_init_state E src (d + 1) pre h1 h2 Front.start rfl
  cases hk : hookSet none pre with
  | none =>
    show (saveFatalMessage E (d + 1) _ m t n).2 = _
    have e' : (fRun E src (d + 1) Front.start pre).1.hook = none := e.trans hk
    rw [saveFatal_eq, e']
  | some h =>
    intro hp
    have e' : (fRun E src (d + 1) Front.start pre).1.hook = some h := e.trans hk
    obtain ⟨es, hes⟩ := lonely_event E d _ m t n h e' hp a hl
    refine ⟨es, ?_⟩
    show (saveFatalMessage E (d + 1) _ m t n).2 = _
    rw [hes, g, b]
    have : (if Front.start.counter = 0 then [] else recursiveText ((fRun E src (d + 1) Front.start pre).1.firstTrace.getD t)) = [] :=
      if_pos rfl
    rw [this, List.append_nil]
    rfl

/-- C48, exactly: the event is reported and ends the process if and only if a hook has been set (hooks set so far
neither fail nor raise fatal events, and the exit handler is the library's). -/
theorem C48_iff (E : Env) (src : Src) (d : Nat) (pre : List FOp) (m : LogMessage) (t : Str) (n : Int)
    (h1 : calm pre) (h2 : noInit pre) (hl : Char.ofNat 0 ∉ m.level.text) (hp : ∀ h, FOp.setHook h ∈ pre → peaceful h.acts)
    (hx : ∀ x, FOp.setHandler x ∉ pre) :
    ((fStep E src (d + 1) (fRun E src (d + 1) Front.start pre).1 (.fatal m t n)).2.2 = .exitSignal n ↔
      ∃ h, FOp.setHook h ∈ pre) := by
  have hset : ∀ (ops : List FOp) (o : Option Hook), hookSet o ops = o ∧ (∀ h, FOp.setHook h ∉ ops) ∨
      ∃ h, FOp.setHook h ∈ ops ∧ hookSet o ops = some h := by
    intro ops
    induction ops with
    | nil => intro o; exact Or.inl ⟨rfl, by simp⟩
    | cons op ops ih =>
      intro o
      cases op with
      | setHook k =>
        rcases ih (some k) with ⟨e, _⟩ | ⟨h, hm, e⟩
        · exact Or.inr ⟨k, List.mem_cons_self, e⟩
        · exact Or.inr ⟨h, List.mem_cons_of_mem _ hm, e⟩
      | _ =>
        rcases ih o with ⟨e, hn⟩ | ⟨h, hm, e⟩
        · exact Or.inl ⟨e, fun h hm => by
            rcases List.mem_cons.mp hm with hm | hm
            · cases hm
            · exact hn h hm⟩
        · exact Or.inr ⟨h, List.mem_cons_of_mem _ hm, e⟩
  have hhand : ∀ (ops : List FOp), (∀ x, FOp.setHandler x ∉ ops) → ∀ y, handlerSet y ops = y := by
    intro ops
    induction ops with
    | nil => intro _ _; rfl
    | cons op ops ih =>
      intro hn y
      have := ih (fun x hm => hn x (List.mem_cons_of_mem _ hm)) y
      cases op with
      | setHandler k => exact absurd List.mem_cons_self (hn k)
      | _ => exact this
  have hex := C48_exact E src d pre m t n h1 h2 hl
  rcases hset pre none with ⟨e, hn⟩ | ⟨h, hm, e⟩
  · rw [e] at hex
    dsimp only at hex
    rw [hex]
    constructor
    · intro hh; cases hh
    · rintro ⟨h, hm⟩; exact absurd hm (hn h)
  · rw [e] at hex
    dsimp only at hex
    obtain ⟨es, hes⟩ := hex (hp h hm)
    rw [hes, hhand pre hx]
    exact ⟨fun _ => ⟨h, hm⟩, fun _ => rfl⟩

/-- C48, what follows: whoever survives that exception has the next fatal event reported after all, ending the process
with its signal; but its text blames a hook and shows the trace of the first event. -/
theorem C48_second (E : Env) (src : Src) (d : Nat) (pre : List FOp) (m m' : LogMessage) (t t' : Str) (n n' : Int)
    (h1 : calm pre) (h2 : noInit pre) (h3 : ∀ h, FOp.setHook h ∉ pre) (h4 : ∀ x, FOp.setHandler x ∉ pre)
    (hl : Char.ofNat 0 ∉ m'.level.text) :
    ∃ es, (fRun E src (d + 1) Front.start (pre ++ [.fatal m t n, .fatal m' t' n'])).2 =
      (es ++ [.hook 0, .err (lonelyReport E { m' with message := m'.message ++ t' ++ recursiveText t } n')], .exitSignal n') ∧
      handed es = [] := by
  obtain ⟨a, b, c, e, g⟩ := before_init_state E src (d + 1) pre h1 h2 Front.start rfl
  have hneg := C48_negation E src d pre m t n h1 h2 h3
  have hok := (pre_run E src (d + 1) pre h1 h2 Front.start rfl (fun _ => rfl)).1
  have hand : handlerSet .default pre = .default := by
    have : ∀ (ops : List FOp), (∀ x, FOp.setHandler x ∉ ops) → ∀ y, handlerSet y ops = y := by
      intro ops
      induction ops with
      | nil => intro _ _; rfl
      | cons op ops ih =>
        intro hn y
        have := ih (fun x hm => hn x (List.mem_cons_of_mem _ hm)) y
        cases op with
        | setHandler k => exact absurd List.mem_cons_self (hn k)
        | _ => exact this
    exact this pre h4 _
  have hquiet : handed (fRun E src (d + 1) Front.start pre).2.1 = [] := by
    have := C48_lost E src d pre [] m t n 0 h1 h2 h3 (by intro _ _ _ hm; cases hm)
    have h5 := this.2
    rw [fRun_append_ok E src (d + 1) pre _ Front.start hok] at h5
    simp only [handed_append, List.append_eq_nil_iff] at h5
    exact h5.1
  refine ⟨(fRun E src (d + 1) Front.start pre).2.1, ?_, hquiet⟩
  rw [fRun_append_ok E src (d + 1) pre _ Front.start hok, fRun_cons, hneg]
  simp only [Stat.goesOn, if_true, List.nil_append]
  rw [fRun_cons]
  have hst : (fStep E src (d + 1) (prep (fRun E src (d + 1) Front.start pre).1 t) (.fatal m' t' n')).2 =
      ([.hook 0, .err (lonelyReport E { m' with message := m'.message ++ t' ++ recursiveText t } n')], .exitSignal n') := by
    show (saveFatalMessage E (d + 1) _ m' t' n').2 = _
    have hft : (fRun E src (d + 1) Front.start pre).1.firstTrace = none := c
    have hc0 : (fRun E src (d + 1) Front.start pre).1.counter = 0 := b
    have hh0 : (fRun E src (d + 1) Front.start pre).1.handler = .default := g.trans hand
    have hi0 : (fRun E src (d + 1) Front.start pre).1.inst = none := a
    generalize (fRun E src (d + 1) Front.start pre).1 = f at hft hc0 hh0 hi0 ⊢
    obtain ⟨x1, x2, x3, x4, x5, x6, x7, x8, x9⟩ := f
    dsimp only at hft hc0 hh0 hi0
    subst hft hc0 hh0 hi0
    rw [saveFatal_eq]
    simp only [prep, nothingHook, runActs, if_true]
    unfold fatalCall pushFatalMessageToLogger
    dsimp only
    have hm : FatalMessage.new (fatalText m' t' t 2) n' = ⟨{ m' with message := m'.message ++ t' ++ recursiveText t }, n'⟩ := by
      unfold FatalMessage.new fatalText LogMessage.copy Level.copy
      rw [if_pos (by omega)]
      simp [cstr_eq_self hl]
    have hg : (some t : Option Str).getD t' = t := rfl
    have hg' : (none : Option Str).getD t = t := rfl
    rw [hg', hg, hm]
    rfl
  generalize fStep E src (d + 1) (prep (fRun E src (d + 1) Front.start pre).1 t) (.fatal m' t' n') = r at hst ⊢
  obtain ⟨r1, r2, r3⟩ := r
  dsimp only at hst ⊢
  cases hst
  rfl

/-- A program that logs, chooses a hook, logs again. -/
example (m : LogMessage) : calm [.log m, .setHook ⟨7, [.log m]⟩, .log m] ∧ noInit [.log m, .setHook ⟨7, [.log m]⟩, .log m] ∧
    hookSet none [.log m, .setHook ⟨7, [.log m]⟩, .log m] = some ⟨7, [.log m]⟩ ∧ peaceful [Act.log m] := by
  refine ⟨?_, ?_, rfl, trivial⟩
  · intro _ _ _ h; simp at h
  · intro _ h; simp at h

end G3.Props
