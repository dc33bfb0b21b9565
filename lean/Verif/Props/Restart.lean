import Verif.Props.FrontExact
import Verif.Spec.Restart
/-
C119: logging can be shut down and started again; the second life is like the first one of a new process.
-/
namespace G3.Props
open G3 G3.Spec

/-- Two states that differ only in what has become of messages without a logger. -/
structure Alike (f g : Front) : Prop where
  inst : f.inst = g.inst
  hook : f.hook = g.hook
  counter : f.counter = g.counter
  trace : f.firstTrace = g.firstTrace
  handler : f.handler = g.handler
  left : f.saveOnce = true
  right : g.saveOnce = true

/-- Two results that look the same. -/
def AlikeR (r r' : R) : Prop := Alike r.1 r'.1 ∧ shown r.2.1 = shown r'.2.1 ∧ r.2.2 = r'.2.2

theorem shown_append (a b : List Eff) : shown (a ++ b) = shown a ++ shown b := by simp [shown]

theorem shown_notice (t : Str) : shown [.err ("LOGGER NOT INITIALIZED:\n\t\t".toList ++ t)] = [] := by
  have h : "LOGGER NOT INITIALIZED:".toList.isPrefixOf ("LOGGER NOT INITIALIZED:\n\t\t".toList ++ t) = true := by
    rw [List.isPrefixOf_iff_prefix]
    exact List.IsPrefix.trans (by decide +kernel) (List.prefix_append _ t)
  unfold shown
  rw [List.filter_cons_of_neg (by simp only [h]; decide)]
  rfl

theorem push_alike {f g : Front} (h : Alike f g) (m : LogMessage) : AlikeR (pushMessageToLogger f m) (pushMessageToLogger g m) := by
  obtain ⟨i, inst, fst, s1, s2, hook, c, ft, hd⟩ := f
  obtain ⟨i', inst', fst', s1', s2', hook', c', ft', hd'⟩ := g
  obtain ⟨e1, e2, e3, e4, e5, e6, e7⟩ := h
  dsimp only at e1 e2 e3 e4 e5 e6 e7
  subst e1 e2 e3 e4 e5 e6 e7
  have hn : shown [.err ("LOGGER NOT INITIALIZED:\n\t\t".toList ++ m.message ++ "\n".toList)] = [] := by
    rw [List.append_assoc]; exact shown_notice _
  unfold pushMessageToLogger
  cases inst with
  | some w => exact ⟨⟨rfl, rfl, rfl, rfl, rfl, rfl, rfl⟩, rfl, rfl⟩
  | none =>
    cases s1 <;> cases s1'
    · exact ⟨⟨rfl, rfl, rfl, rfl, rfl, rfl, rfl⟩, rfl, rfl⟩
    · exact ⟨⟨rfl, rfl, rfl, rfl, rfl, rfl, rfl⟩, hn, rfl⟩
    · exact ⟨⟨rfl, rfl, rfl, rfl, rfl, rfl, rfl⟩, hn.symm, rfl⟩
    · exact ⟨⟨rfl, rfl, rfl, rfl, rfl, rfl, rfl⟩, rfl, rfl⟩

theorem acts_alike {ev : Front → LogMessage → Str → Int → R} (hev : ∀ f g m t n, Alike f g → AlikeR (ev f m t n) (ev g m t n))
    (acts : List Act) : ∀ f g, Alike f g → AlikeR (runActs ev f acts) (runActs ev g acts) := by
  induction acts with
  | nil => intro f g h; exact ⟨h, rfl, rfl⟩
  | cons a rest ih =>
    intro f g h
    cases a with
    | log m =>
      obtain ⟨p1, p2, p3⟩ := push_alike h m
      obtain ⟨q1, q2, q3⟩ := ih _ _ p1
      refine ⟨q1, ?_, q3⟩
      simp only [runActs]
      rw [shown_append, shown_append, p2, q2]
    | setHook id as => exact ih _ _ ⟨h.inst, rfl, h.counter, h.trace, h.handler, h.left, h.right⟩
    | throws => exact ⟨h, rfl, rfl⟩
    | fatal m t n =>
      obtain ⟨p1, p2, p3⟩ := hev f g m t n h
      simp only [runActs]
      by_cases hk : (ev f m t n).2.2 = .ok
      · rw [if_pos hk, if_pos (p3 ▸ hk)]
        obtain ⟨q1, q2, q3⟩ := ih _ _ p1
        refine ⟨q1, ?_, q3⟩
        dsimp only
        rw [shown_append, shown_append, p2, q2]
      · rw [if_neg hk, if_neg (fun e => hk (p3.trans e))]
        exact ⟨p1, p2, p3⟩

theorem call_alike (E : Env) {f g : Front} (h : Alike f g) (m : FatalMessage) : AlikeR (fatalCall E f m) (fatalCall E g m) := by
  unfold fatalCall pushFatalMessageToLogger
  rw [← h.handler, ← h.inst]
  cases f.handler with
  | default => cases f.inst <;> exact ⟨h, rfl, rfl⟩
  | custom b => exact ⟨h, rfl, rfl⟩

theorem event_alike (E : Env) (d : Nat) : ∀ f g m t n, Alike f g → AlikeR (saveFatalMessage E d f m t n) (saveFatalMessage E d g m t n) := by
  induction d with
  | zero => intro f g m t n h; exact ⟨h, rfl, rfl⟩
  | succ d ih =>
    intro f g m t n h
    rw [saveFatal_eq, saveFatal_eq, ← h.hook]
    have hp : Alike (prep f t) (prep g t) :=
      ⟨h.inst, rfl, by show f.counter + 1 = g.counter + 1; rw [h.counter], by show some _ = some _; rw [h.trace], h.handler, h.left, h.right⟩
    cases f.hook with
    | none => exact ⟨hp, rfl, rfl⟩
    | some k =>
      dsimp only
      obtain ⟨q1, q2, q3⟩ := acts_alike (ev := saveFatalMessage E d) (fun f g m t n => ih f g m t n) k.acts _ _ hp
      have hc : ∀ l l', shown l = shown l' → shown (.hook k.id :: l) = shown (.hook k.id :: l') := by
        intro l l' e
        rw [cons_eq, cons_eq _ l', shown_append, shown_append, e]
      by_cases hk : (runActs (saveFatalMessage E d) (prep f t) k.acts).2.2 = .ok
      · rw [if_pos hk, if_pos (q3 ▸ hk)]
        obtain ⟨r1, r2, r3⟩ := call_alike E q1
          (FatalMessage.new (fatalText m t (f.firstTrace.getD t) (runActs (saveFatalMessage E d) (prep f t) k.acts).1.counter) n)
        rw [← q1.counter, ← h.trace]
        refine ⟨r1, ?_, r3⟩
        dsimp only
        rw [List.cons_append, List.cons_append]
        apply hc
        rw [shown_append, shown_append, q2, r2]
      · rw [if_neg hk, if_neg (fun e => hk (q3.trans e))]
        exact ⟨q1, hc _ _ q2, q3⟩

theorem init_alike (src : Src) {f g : Front} (h : Alike f g) (w : Option Nat) : AlikeR (initializeLogging src f w) (initializeLogging src g w) := by
  obtain ⟨i, inst, fst, s1, s2, hook, c, ft, hd⟩ := f
  obtain ⟨i', inst', fst', s1', s2', hook', c', ft', hd'⟩ := g
  obtain ⟨e1, e2, e3, e4, e5, e6, e7⟩ := h
  dsimp only at e1 e2 e3 e4 e5 e6 e7
  subst e1 e2 e3 e4 e5 e6 e7
  have hin : ∀ b : Bool, shown (if b = true then [] else [Eff.install]) = [] := by intro b; cases b <;> rfl
  unfold initializeLogging
  cases inst with
  | some a =>
    refine ⟨⟨rfl, rfl, rfl, rfl, rfl, rfl, rfl⟩, ?_, rfl⟩
    dsimp only
    rw [shown_append, shown_append, hin, hin]
    rfl
  | none =>
    cases w with
    | none =>
      refine ⟨⟨rfl, rfl, rfl, rfl, rfl, rfl, rfl⟩, ?_, rfl⟩
      dsimp only
      rw [shown_append, shown_append, hin, hin]
      rfl
    | some w =>
      refine ⟨⟨rfl, rfl, rfl, rfl, rfl, rfl, rfl⟩, ?_, rfl⟩
      dsimp only
      rw [shown_append, shown_append, hin, hin]
      rfl

/-- An initialisation after an earlier one looks like the first one of a program in which no message came too early. -/
theorem begin_alike (src : Src) (f : Front) (w : Nat) (hs : f.saveOnce = true) (hi : f.inst = none) :
    AlikeR (initializeLogging src f (some w)) (initializeLogging src (begunWith f.handler f.firstTrace) (some w)) := by
  obtain ⟨i, inst, fst, s1, s2, hook, c, ft, hd⟩ := f
  dsimp only at hs hi
  subst hs hi
  have hin : ∀ b : Bool, shown (if b = true then [] else [Eff.install]) = [] := by intro b; cases b <;> rfl
  unfold initializeLogging begunWith Front.start
  refine ⟨⟨rfl, rfl, rfl, rfl, rfl, rfl, rfl⟩, ?_, rfl⟩
  dsimp only
  rw [shown_append, shown_append, hin, hin]
  rfl

theorem step_alike (E : Env) (src : Src) (d : Nat) {f g : Front} (h : Alike f g) (op : FOp) : AlikeR (fStep E src d f op) (fStep E src d g op) := by
  cases op with
  | log m => exact push_alike h m
  | init w => exact init_alike src h w
  | shutdown => exact ⟨⟨rfl, h.hook, h.counter, h.trace, h.handler, h.left, h.right⟩, rfl, rfl⟩
  | shutdownActive warn m w =>
    show AlikeR (shutDownLoggingForActiveOnly warn m f w).1 (shutDownLoggingForActiveOnly warn m g w).1
    rw [sdActive_eq, sdActive_eq, ← h.inst]
    have off : Alike (shutDownLogging f) (shutDownLogging g) := ⟨rfl, h.hook, h.counter, h.trace, h.handler, h.left, h.right⟩
    cases f.inst with
    | none => exact ⟨off, rfl, rfl⟩
    | some a =>
      cases w with
      | none => exact ⟨off, rfl, rfl⟩
      | some b =>
        dsimp only
        by_cases hab : a = b
        · rw [if_pos hab, if_pos hab]; exact ⟨off, rfl, rfl⟩
        · rw [if_neg hab, if_neg hab]; exact ⟨h, rfl, rfl⟩
  | setHook k => exact ⟨⟨h.inst, rfl, h.counter, h.trace, h.handler, h.left, h.right⟩, rfl, rfl⟩
  | setHandler k => exact ⟨⟨h.inst, h.hook, h.counter, h.trace, rfl, h.left, h.right⟩, rfl, rfl⟩
  | fatal m t n => exact event_alike E d f g m t n h

theorem run_alike (E : Env) (src : Src) (d : Nat) (ops : List FOp) : ∀ {f g : Front}, Alike f g → AlikeR (fRun E src d f ops) (fRun E src d g ops) := by
  induction ops with
  | nil => intro f g h; exact ⟨h, rfl, rfl⟩
  | cons op ops ih =>
    intro f g h
    obtain ⟨p1, p2, p3⟩ := step_alike E src d h op
    rw [fRun_cons, fRun_cons]
    by_cases hk : (fStep E src d f op).2.2.goesOn = true
    · rw [if_pos hk, if_pos (p3 ▸ hk)]
      obtain ⟨q1, q2, q3⟩ := ih p1
      refine ⟨q1, ?_, q3⟩
      dsimp only
      rw [shown_append, shown_append, p2, q2]
    · rw [if_neg hk, if_neg (by rw [← p3]; exact hk)]
      exact ⟨p1, p2, p3⟩

/-! What stays: once a message before initialisation would have been taken over, this does not happen again. -/

theorem acts_saveOnce {ev : Front → LogMessage → Str → Int → R} (hev : ∀ f m t n, (ev f m t n).1.saveOnce = f.saveOnce)
    (acts : List Act) : ∀ f, (runActs ev f acts).1.saveOnce = f.saveOnce := by
  induction acts with
  | nil => intro f; rfl
  | cons a rest ih =>
    intro f
    cases a with
    | log m =>
      simp only [runActs]
      rw [ih]
      unfold pushMessageToLogger
      cases f.inst with
      | none => cases f.setOnce <;> rfl
      | some _ => rfl
    | setHook id as => exact ih _
    | throws => rfl
    | fatal m t n =>
      simp only [runActs]
      split
      · dsimp only; rw [ih, hev]
      · exact hev f m t n

theorem event_saveOnce (E : Env) (d : Nat) : ∀ f m t n, (saveFatalMessage E d f m t n).1.saveOnce = f.saveOnce := by
  induction d with
  | zero => intro f m t n; rfl
  | succ d ih =>
    intro f m t n
    rw [saveFatal_eq]
    cases f.hook with
    | none => rfl
    | some k =>
      dsimp only
      split
      · rw [(fatalCall_props E _ _).1, acts_saveOnce ih]; rfl
      · dsimp only; rw [acts_saveOnce ih]; rfl

theorem step_saveOnce (E : Env) (src : Src) (d : Nat) (f : Front) (op : FOp) (h : f.saveOnce = true) : (fStep E src d f op).1.saveOnce = true := by
  cases op with
  | fatal m t n => exact (event_saveOnce E d f m t n).trans h
  | log m =>
    show (pushMessageToLogger f m).1.saveOnce = true
    unfold pushMessageToLogger; split
    · split <;> exact h
    · exact h
  | init w => exact init_save src f w h
  | shutdown => exact h
  | shutdownActive warn m w =>
    show (shutDownLoggingForActiveOnly warn m f w).1.1.saveOnce = true
    rw [sdActive_eq]
    split
    · split <;> exact h
    · exact h
  | setHook hk => exact h
  | setHandler hk => exact h

theorem run_saveOnce (E : Env) (src : Src) (d : Nat) (ops : List FOp) (f : Front) (hok : (fRun E src d f ops).2.2 = .ok)
    (h : f.saveOnce = true ∨ everBegun ops) : (fRun E src d f ops).1.saveOnce = true := by
  induction ops generalizing f with
  | nil =>
    rcases h with h | ⟨w, hw⟩
    · exact h
    · cases hw
  | cons op ops ih =>
    rw [fRun_cons] at hok ⊢
    by_cases hk : (fStep E src d f op).2.2.goesOn = true
    · rw [if_pos hk] at hok ⊢
      apply ih _ hok
      rcases h with h | ⟨w, hw⟩
      · exact Or.inl (step_saveOnce E src d f op h)
      · rcases List.mem_cons.mp hw with hw | hw
        · subst hw
          left
          cases hi : f.inst with
          | none => exact (init_save' src f w hi).1
          | some a =>
            exfalso
            revert hk
            show ((initializeLogging src f (some w)).2.2.goesOn = true) → False
            unfold initializeLogging
            simp only [hi]
            simp [Stat.goesOn]
        · exact Or.inr ⟨w, hw⟩
    · rw [if_neg hk] at hok
      rw [hok] at hk
      exact absurd rfl hk

/-- C119: logging can be ended and begun again. Whatever happened before, provided there was a first life and no worker is active: from the new initialisation on, the program
does and shows exactly what it would in a new process, except that the exit handler is still the one set before and a recursive crash would show the stack trace of
the very first fatal event. In particular no message, no hook and no count of fatal events is left over from the first life. -/
theorem C119_again_partial (E : Env) (src : Src) (d : Nat) (life ops : List FOp) (w : Nat) (hok : (fRun E src d Front.start life).2.2 = .ok)
    (hoff : (fRun E src d Front.start life).1.inst = none) (hb : everBegun life) :
    let f := (fRun E src d Front.start life).1
    let r := fRun E src d (begunWith f.handler f.firstTrace) (.init (some w) :: ops)
    shown (fRun E src d Front.start (life ++ .init (some w) :: ops)).2.1 = shown (fRun E src d Front.start life).2.1 ++ shown r.2.1 ∧
    (fRun E src d Front.start (life ++ .init (some w) :: ops)).2.2 = r.2.2 := by
  intro f r
  have hs : f.saveOnce = true := run_saveOnce E src d life Front.start hok (Or.inr hb)
  rw [fRun_append_ok E src d life _ _ hok]
  dsimp only
  rw [shown_append]
  have key : AlikeR (fRun E src d f (.init (some w) :: ops)) r := by
    have h1 : AlikeR (fStep E src d f (.init (some w))) (fStep E src d (begunWith f.handler f.firstTrace) (.init (some w))) := by
      exact begin_alike src f w hs hoff
    obtain ⟨p1, p2, p3⟩ := h1
    show AlikeR (fRun E src d f (.init (some w) :: ops)) (fRun E src d (begunWith f.handler f.firstTrace) (.init (some w) :: ops))
    rw [fRun_cons, fRun_cons]
    by_cases hk : (fStep E src d f (.init (some w))).2.2.goesOn = true
    · rw [if_pos hk, if_pos (p3 ▸ hk)]
      obtain ⟨q1, q2, q3⟩ := run_alike E src d ops p1
      refine ⟨q1, ?_, q3⟩
      dsimp only
      rw [shown_append, shown_append, p2, q2]
    · rw [if_neg hk, if_neg (by rw [← p3]; exact hk)]
      exact ⟨p1, p2, p3⟩
  exact ⟨by rw [key.2.1], key.2.2⟩

theorem calm_kept (E : Env) (src : Src) (d : Nat) (ops : List FOp) (hc : calm ops) (f : Front) :
    (fRun E src d f ops).1.firstTrace = f.firstTrace ∧ ((fRun E src d f ops).2.2 = .ok → (fRun E src d f ops).1.handler = handlerSet f.handler ops) := by
  induction ops generalizing f with
  | nil => exact ⟨rfl, fun _ => rfl⟩
  | cons op ops ih =>
    have hst : (fStep E src d f op).1.firstTrace = f.firstTrace ∧
        ((fStep E src d f op).1.handler = handlerSet f.handler [op]) := by
      cases op with
      | log m =>
        show (pushMessageToLogger f m).1.firstTrace = _ ∧ (pushMessageToLogger f m).1.handler = f.handler
        unfold pushMessageToLogger
        cases f.inst with
        | none => cases f.setOnce <;> exact ⟨rfl, rfl⟩
        | some _ => exact ⟨rfl, rfl⟩
      | init w =>
        obtain ⟨i, inst, fst, s1, s2, hook, c, ft, hd⟩ := f
        cases inst <;> cases w <;> cases s2 <;> exact ⟨rfl, rfl⟩
      | shutdown => exact ⟨rfl, rfl⟩
      | shutdownActive warn m w =>
        show (shutDownLoggingForActiveOnly warn m f w).1.1.firstTrace = _ ∧ (shutDownLoggingForActiveOnly warn m f w).1.1.handler = f.handler
        rw [sdActive_eq]
        split
        · split <;> exact ⟨rfl, rfl⟩
        · exact ⟨rfl, rfl⟩
      | setHook hk => exact ⟨rfl, rfl⟩
      | setHandler hk => exact ⟨rfl, rfl⟩
      | fatal m t n => exact absurd (by simp) (hc m t n)
    have hset : handlerSet f.handler (op :: ops) = handlerSet (handlerSet f.handler [op]) ops := by cases op <;> rfl
    rw [fRun_cons]
    split
    · dsimp only
      obtain ⟨a, b⟩ := ih (calm_tail hc) (fStep E src d f op).1
      exact ⟨a.trans hst.1, fun ho => by rw [b ho, hst.2, hset]⟩
    · rename_i hk
      exact ⟨hst.1, fun ho => absurd (by rw [ho]; rfl) hk⟩

/-- C119: after a life without fatal events the new one is exactly like that of a new process in which the same exit handler has been set. -/
theorem C119_like_new (E : Env) (src : Src) (d : Nat) (life ops : List FOp) (w : Nat) (hc : calm life) (hok : (fRun E src d Front.start life).2.2 = .ok)
    (hoff : (fRun E src d Front.start life).1.inst = none) (hb : everBegun life) :
    let r := fRun E src d Front.start (.setHandler (handlerSet .default life) :: .init (some w) :: ops)
    shown (fRun E src d Front.start (life ++ .init (some w) :: ops)).2.1 = shown (fRun E src d Front.start life).2.1 ++ shown r.2.1 ∧
    (fRun E src d Front.start (life ++ .init (some w) :: ops)).2.2 = r.2.2 := by
  obtain ⟨c1, c2⟩ := calm_kept E src d life hc Front.start
  have h := C119_again_partial E src d life ops w hok hoff hb
  dsimp only at h ⊢
  rw [c1, c2 hok] at h
  exact h

/-! ### What is not like new -/

theorem got_start (E : Env) (src : Src) (d w : Nat) (ops : List FOp) (hs : simpleOps ops) :
    handlerGot (fRun E src (d + 2) Front.start (.init (some w) :: .setHandler (.custom true) :: ops)).2.1 = handlerSees (some w) 0 none [] ops := by
  have h := C49_exact E src d ops hs (setFatalExitHandler (initializeLogging src Front.start (some w)).1 (.custom true)) nothingHook rfl trivial rfl
  have e : (fRun E src (d + 2) Front.start (.init (some w) :: .setHandler (.custom true) :: ops)).2.1 =
      .install :: (fRun E src (d + 2) (setFatalExitHandler (initializeLogging src Front.start (some w)).1 (.custom true)) ops).2.1 := rfl
  rw [e]
  exact h

/-- C119 is false in general: the warning in a fatal message of the second life shows the stack trace of a fatal event of the first life, not that of the
first fatal event of this life, as in a new process. -/
theorem C119_negation : ∃ (E : Env) (src : Src) (m : LogMessage) (a b c : Str),
    handlerGot (fRun E src 2 Front.start [.init (some 1), .setHandler (.custom true), .fatal m a 6, .shutdown, .init (some 2), .fatal m b 6, .fatal m c 6]).2.1 =
      [(fatalEntry m a a false, 6), (fatalEntry m b a false, 6), (fatalEntry m c a true, 6)] ∧
    handlerGot (fRun E src 2 Front.start [.init (some 2), .setHandler (.custom true), .fatal m b 6, .fatal m c 6]).2.1 =
      [(fatalEntry m b b false, 6), (fatalEntry m c b true, 6)] ∧
    fatalEntry m b a false = fatalEntry m b b false ∧ fatalEntry m c a true ≠ fatalEntry m c b true := by
  refine ⟨⟨fun _ => [], fun _ => [], fun _ _ => []⟩, ⟨[], []⟩, LogMessage.new false 0 1 [] 0 [] FATAL, ['a'], ['b'], ['c'], ?_, ?_, by decide +kernel, by decide +kernel⟩
  · generalize LogMessage.new false 0 1 [] 0 [] FATAL = m
    rw [got_start _ _ 0 1 _ (by intro op hop; simp at hop; rcases hop with rfl | rfl | rfl | rfl | rfl <;> trivial)]
    rfl
  · generalize LogMessage.new false 0 1 [] 0 [] FATAL = m
    rw [got_start _ _ 0 2 _ (by intro op hop; simp at hop; rcases hop with rfl | rfl <;> trivial)]
    rfl

theorem installs_append (a b : List Eff) : installs (a ++ b) = installs a + installs b := by simp [installs]

/-- The count of installations fits the flag. -/
def Inst (f : Front) (r : R) : Prop := installs r.2.1 + f.installed.toNat = r.1.installed.toNat

theorem push_inst (f : Front) (m : LogMessage) : (pushMessageToLogger f m).1.installed = f.installed ∧ installs (pushMessageToLogger f m).2.1 = 0 := by
  unfold pushMessageToLogger
  cases f.inst with
  | none => cases f.setOnce <;> exact ⟨rfl, rfl⟩
  | some _ => exact ⟨rfl, rfl⟩

theorem acts_inst {ev : Front → LogMessage → Str → Int → R} (hev : ∀ f m t n, (ev f m t n).1.installed = f.installed ∧ installs (ev f m t n).2.1 = 0)
    (acts : List Act) : ∀ f, (runActs ev f acts).1.installed = f.installed ∧ installs (runActs ev f acts).2.1 = 0 := by
  induction acts with
  | nil => intro f; exact ⟨rfl, rfl⟩
  | cons a rest ih =>
    intro f
    cases a with
    | log m =>
      simp only [runActs]
      rw [installs_append, (push_inst f m).2, (ih _).2, (ih _).1, (push_inst f m).1]
      exact ⟨rfl, rfl⟩
    | setHook id as => exact ih _
    | throws => exact ⟨rfl, rfl⟩
    | fatal m t n =>
      simp only [runActs]
      split
      · dsimp only
        rw [installs_append, (hev f m t n).2, (ih _).2, (ih _).1, (hev f m t n).1]
        exact ⟨rfl, rfl⟩
      · exact hev f m t n

theorem call_inst (E : Env) (f : Front) (m : FatalMessage) : installs (fatalCall E f m).2.1 = 0 := by
  unfold fatalCall pushFatalMessageToLogger
  cases f.handler with
  | default => cases f.inst <;> rfl
  | custom b => rfl

theorem event_inst (E : Env) (d : Nat) : ∀ f m t n, (saveFatalMessage E d f m t n).1.installed = f.installed ∧ installs (saveFatalMessage E d f m t n).2.1 = 0 := by
  induction d with
  | zero => intro f m t n; exact ⟨rfl, rfl⟩
  | succ d ih =>
    intro f m t n
    rw [saveFatal_eq]
    cases f.hook with
    | none => exact ⟨rfl, rfl⟩
    | some k =>
      dsimp only
      obtain ⟨a, b⟩ := acts_inst ih k.acts (prep f t)
      have hc : ∀ l, installs (.hook k.id :: l) = installs l := fun l => rfl
      split
      · rw [(fatalCall_props E _ _).1, List.cons_append, hc, installs_append, b, call_inst]
        exact ⟨a, rfl⟩
      · rw [hc]; exact ⟨a, b⟩

theorem step_inst (E : Env) (src : Src) (d : Nat) (f : Front) (op : FOp) : Inst f (fStep E src d f op) ∧
    ((fStep E src d f op).1.installed = true ↔ f.installed = true ∨ ∃ w, op = .init w) := by
  cases op with
  | log m =>
    show Inst f (pushMessageToLogger f m) ∧ ((pushMessageToLogger f m).1.installed = true ↔ _)
    unfold Inst
    rw [(push_inst f m).1, (push_inst f m).2]
    simp
  | init w =>
    obtain ⟨i, inst, fst, s1, s2, hook, c, ft, hd⟩ := f
    cases i <;> cases inst <;> cases w <;> cases s2 <;> cases fst <;> exact ⟨rfl, iff_of_true rfl (Or.inr ⟨_, rfl⟩)⟩
  | shutdown => exact ⟨Nat.zero_add _, by simp [fStep, shutDownLogging]⟩
  | shutdownActive warn m w =>
    show Inst f (shutDownLoggingForActiveOnly warn m f w).1 ∧ ((shutDownLoggingForActiveOnly warn m f w).1.1.installed = true ↔ _)
    unfold Inst shutDownLoggingForActiveOnly
    split
    · cases warn
      · simp [installs]
      · dsimp only [if_true]
        simp [(push_inst f m).1, (push_inst f m).2]
    · simp [installs, shutDownLogging]
  | setHook hk => exact ⟨Nat.zero_add _, by simp [fStep, setFatalPreLoggingHook]⟩
  | setHandler hk => exact ⟨Nat.zero_add _, by simp [fStep, setFatalExitHandler]⟩
  | fatal m t n =>
    show Inst f (saveFatalMessage E d f m t n) ∧ ((saveFatalMessage E d f m t n).1.installed = true ↔ _)
    unfold Inst
    rw [(event_inst E d f m t n).1, (event_inst E d f m t n).2]
    simp

theorem run_inst (E : Env) (src : Src) (d : Nat) (ops : List FOp) : ∀ f, Inst f (fRun E src d f ops) ∧ ((fRun E src d f ops).2.2 = .ok →
    ((fRun E src d f ops).1.installed = true ↔ f.installed = true ∨ ∃ w, FOp.init w ∈ ops)) := by
  induction ops with
  | nil => intro f; exact ⟨Nat.zero_add _, fun _ => by simp [fRun]⟩
  | cons op ops ih =>
    intro f
    obtain ⟨a, b⟩ := step_inst E src d f op
    rw [fRun_cons]
    split
    · obtain ⟨c, e⟩ := ih (fStep E src d f op).1
      unfold Inst at *
      dsimp only
      rw [installs_append]
      refine ⟨by omega, fun ho => ?_⟩
      rw [e ho, b]
      constructor
      · rintro ((h | ⟨w, rfl⟩) | ⟨w, h⟩)
        · exact Or.inl h
        · exact Or.inr ⟨w, by simp⟩
        · exact Or.inr ⟨w, List.mem_cons_of_mem _ h⟩
      · rintro (h | ⟨w, h⟩)
        · exact Or.inl (Or.inl h)
        · rcases List.mem_cons.mp h with h | h
          · exact Or.inl (Or.inr ⟨w, h.symm⟩)
          · exact Or.inr ⟨w, h⟩
    · rename_i hk
      exact ⟨a, fun ho => absurd (by rw [ho]; rfl) hk⟩

/-- C119, what else is not like new: the signal handlers are installed at most once in the life of the process, by its first initialisation. A later initialisation
does not install them again, even if they have been restored in between. -/
theorem C119_install_once (E : Env) (src : Src) (d : Nat) (ops : List FOp) :
    installs (fRun E src d Front.start ops).2.1 ≤ 1 ∧ ((fRun E src d Front.start ops).2.2 = .ok →
      (installs (fRun E src d Front.start ops).2.1 = 1 ↔ ∃ w, FOp.init w ∈ ops)) := by
  obtain ⟨a, b⟩ := run_inst E src d ops Front.start
  unfold Inst at a
  have h0 : Front.start.installed.toNat = 0 := rfl
  rw [h0, Nat.add_zero] at a
  rw [a]
  refine ⟨Bool.toNat_le _, fun ho => ?_⟩
  have : (fRun E src d Front.start ops).1.installed = true ↔ ∃ w, FOp.init w ∈ ops := (b ho).trans ⟨fun h => h.resolve_left (by decide), Or.inr⟩
  rw [← this]
  cases (fRun E src d Front.start ops).1.installed <;> simp

theorem calm_unheard (E : Env) (src : Src) (d : Nat) (ops : List FOp) (hc : calm ops) : ∀ f : Front, (fRun E src d f ops).2.2 = .ok →
    (fRun E src d f ops).1.setOnce = (f.setOnce || unheard f.inst ops) := by
  induction ops with
  | nil => intro f _; simp [fRun, unheard]
  | cons op ops ih =>
    intro f ho
    have hc' := calm_tail hc
    rw [fRun_cons] at ho ⊢
    cases op with
    | log m =>
      have hst : fStep E src d f (.log m) = pushMessageToLogger f m := rfl
      rw [hst] at ho ⊢
      unfold pushMessageToLogger at ho ⊢
      cases hi : f.inst with
      | none =>
        rw [hi] at ho
        cases hs : f.setOnce with
        | true =>
          simp only [hs, Stat.goesOn, if_true] at ho ⊢
          rw [ih hc' f ho, hs]
          rfl
        | false =>
          simp only [hs, Bool.false_eq_true, if_false, Stat.goesOn, if_true] at ho ⊢
          rw [ih hc' _ ho]
          rfl
      | some w =>
        rw [hi] at ho
        simp only [Stat.goesOn, if_true] at ho ⊢
        rw [ih hc' f ho, hi]
        rfl
    | init w =>
      have hst : fStep E src d f (.init w) = initializeLogging src f w := rfl
      rw [hst] at ho ⊢
      obtain ⟨i, inst, fst, s1, s2, hook, c, ft, hd⟩ := f
      cases inst with
      | some a =>
        have e : (initializeLogging src ⟨i, some a, fst, s1, s2, hook, c, ft, hd⟩ w).2.2 = .exitFailure := rfl
        rw [if_neg (by rw [e]; simp [Stat.goesOn]), e] at ho
        cases ho
      | none =>
        cases w with
        | none =>
          have e : (initializeLogging src ⟨i, none, fst, s1, s2, hook, c, ft, hd⟩ none).2.2 = .exitFailure := rfl
          rw [if_neg (by rw [e]; simp [Stat.goesOn]), e] at ho
          cases ho
        | some w =>
          have e : (initializeLogging src ⟨i, none, fst, s1, s2, hook, c, ft, hd⟩ (some w)).2.2 = .ok := rfl
          rw [if_pos (by rw [e]; rfl)] at ho ⊢
          dsimp only at ho ⊢
          rw [ih hc' _ ho]
          cases s2 <;> rfl
    | shutdown =>
      simp only [fStep, Stat.goesOn, if_true] at ho ⊢
      rw [ih hc' _ ho]
      cases f.inst <;> rfl
    | shutdownActive warn m w =>
      have hst : fStep E src d f (.shutdownActive warn m w) = (shutDownLoggingForActiveOnly warn m f w).1 := rfl
      rw [hst] at ho ⊢
      rw [sdActive_eq] at ho ⊢
      cases hi : f.inst with
      | none =>
        simp only [hi, Stat.goesOn, if_true] at ho ⊢
        rw [ih hc' _ ho]
        rfl
      | some a =>
        cases w with
        | none =>
          simp only [hi, Stat.goesOn, if_true] at ho ⊢
          rw [ih hc' _ ho]
          rfl
        | some b =>
          by_cases hab : a = b
          · simp only [hi, hab, Stat.goesOn, if_true] at ho ⊢
            rw [ih hc' _ ho]
            simp [unheard, shutDownLogging]
          · have hab' : ¬ b = a := fun h => hab h.symm
            simp only [hi, hab, if_false, Stat.goesOn, if_true] at ho ⊢
            rw [ih hc' _ ho]
            simp [unheard, hi, hab']
    | setHook hk =>
      simp only [fStep, Stat.goesOn, if_true] at ho ⊢
      rw [ih hc' _ ho]
      show (f.setOnce || unheard f.inst ops) = _
      cases f.inst <;> rfl
    | setHandler hk =>
      simp only [fStep, Stat.goesOn, if_true] at ho ⊢
      rw [ih hc' _ ho]
      show (f.setOnce || unheard f.inst ops) = _
      cases f.inst <;> rfl
    | fatal m t n => exact absurd (by simp) (hc m t n)

theorem logs_off (E : Env) (src : Src) (d : Nat) (ms : List LogMessage) : ∀ f : Front, f.inst = none → f.saveOnce = true →
    (fRun E src d f (ms.map .log)).2.2 = .ok ∧ (fRun E src d f (ms.map .log)).1.inst = none ∧ (fRun E src d f (ms.map .log)).1.saveOnce = true ∧
    (fRun E src d f (ms.map .log)).1.installed = f.installed ∧
    (fRun E src d f (ms.map .log)).2.1 = if f.setOnce then [] else (ms.head?.toList.map fun m => .err (notice m)) := by
  induction ms with
  | nil => intro f h1 h2; refine ⟨rfl, h1, h2, rfl, ?_⟩; cases f.setOnce <;> rfl
  | cons m ms ih =>
    intro f h1 h2
    obtain ⟨i, inst, fst, s1, s2, hook, c, ft, hd⟩ := f
    dsimp only at h1 h2
    subst h1 h2
    rw [List.map_cons, fRun_cons]
    have hst : ∀ f, fStep E src d f (.log m) = pushMessageToLogger f m := fun _ => rfl
    rw [hst]
    unfold pushMessageToLogger
    cases s1 with
    | true =>
      simp only [if_true, Stat.goesOn]
      obtain ⟨a, b, c, e, g⟩ := ih ⟨i, none, fst, true, true, hook, c, ft, hd⟩ rfl rfl
      exact ⟨a, b, c, e, g⟩
    | false =>
      simp only [Bool.false_eq_true, if_false, if_true, Stat.goesOn]
      obtain ⟨a, b, c, e, g⟩ := ih ⟨i, none, some { m with message := "LOGGER NOT INITIALIZED:\n\t\t".toList ++ m.message }, true, true, hook, c, ft, hd⟩ rfl rfl
      refine ⟨a, b, c, e, ?_⟩
      rw [g]
      rfl

/-- C119, exactly what becomes of messages logged between two lives: none of them reaches a worker, old or new; at most the first of them is printed on stderr, and only if
no message of the whole process has found no logger before. -/
theorem C119_gap (E : Env) (src : Src) (d : Nat) (life : List FOp) (ms : List LogMessage) (w : Nat) (hc : calm life) (hok : (fRun E src d Front.start life).2.2 = .ok)
    (hoff : (fRun E src d Front.start life).1.inst = none) (hb : everBegun life) :
    (fRun E src d Front.start (life ++ (ms.map .log ++ [.init (some w)]))).2.1 =
      (fRun E src d Front.start life).2.1 ++ if unheard none life then [] else ms.head?.toList.map fun m => .err (notice m) := by
  have hs := run_saveOnce E src d life Front.start hok (Or.inr hb)
  have hu := calm_unheard E src d life hc Front.start hok
  have hin : (fRun E src d Front.start life).1.installed = true := by
    obtain ⟨w0, hw⟩ := hb
    exact ((run_inst E src d life Front.start).2 hok).2 (Or.inr ⟨_, hw⟩)
  rw [fRun_append_ok E src d life _ _ hok]
  dsimp only
  generalize (fRun E src d Front.start life).1 = f at *
  obtain ⟨a, b, c, e, g⟩ := logs_off E src d ms f hoff hs
  rw [fRun_append_ok E src d _ _ _ a, g]
  dsimp only
  generalize (fRun E src d f (ms.map .log)).1 = f' at *
  have hlast : (fRun E src d f' [.init (some w)]).2.1 = [] := by
    obtain ⟨i, inst, fst, s1, s2, hook, c', ft, hd⟩ := f'
    dsimp only at b c e
    rw [hin] at e
    subst b c e
    rfl
  rw [hlast, List.append_nil, hu]
  rfl

/-- The hypotheses are met by a first life with an early message, a hook, an exit handler and a refused shut-down. -/
example (m : LogMessage) : let life : List FOp := [.log m, .setHandler (.custom true), .init (some 1), .setHook ⟨7, [.log m]⟩, .log m, .shutdownActive false m (some 2), .shutdownActive true m (some 1)]
    let r := fRun ⟨fun _ => [], fun _ => [], fun _ _ => []⟩ ⟨[], []⟩ 1 Front.start life
    calm life ∧ r.2.2 = .ok ∧ r.1.inst = none ∧ everBegun life ∧ unheard none life = true ∧ handlerSet .default life = .custom true :=
  ⟨by intro m t n h; simp at h, rfl, rfl, ⟨1, by simp⟩, rfl, rfl⟩

/-- And by one that has seen a fatal event, which its exit handler survived. -/
example (m : LogMessage) : let life : List FOp := [.setHandler (.custom true), .init (some 1), .fatal m ['a'] 6, .shutdown]
    let r := fRun ⟨fun _ => [], fun _ => [], fun _ _ => []⟩ ⟨[], []⟩ 2 Front.start life
    r.2.2 = .ok ∧ r.1.inst = none ∧ everBegun life ∧ r.1.handler = .custom true ∧ r.1.firstTrace = some ['a'] ∧ unheard none life = false :=
  ⟨rfl, rfl, ⟨1, by simp⟩, rfl, rfl, rfl⟩

example (m : LogMessage) : unheard none [.init (some 1), .shutdownActive true m (some 2), .log m] = false ∧
    unheard none [.init (some 1), .shutdownActive true m (some 1), .log m] = true ∧ unheard none [.init (some 1), .shutdownActive true m none, .log m] = true ∧
    unheard none [.init (some 1), .shutdown, .setHook ⟨1, []⟩, .log m] = true ∧ unheard none [.init (some 1), .log m, .shutdown] = false ∧
    unheard none [.shutdownActive true m (some 2), .setHandler .default] = false := ⟨rfl, rfl, rfl, rfl, rfl, rfl⟩

example (m : LogMessage) (fm : FatalMessage) : shown [.install, .save 1 m, .fatal 2 fm, .hook 3, .handler fm] = [.save 1 m, .fatal 2 fm, .hook 3, .handler fm] ∧
    installs [.install, .save 1 m, .fatal 2 fm, .hook 3, .handler fm, .err [], .install] = 2 := ⟨rfl, rfl⟩

example : shown [.err "LOGGER NOT INITIALIZED".toList] = [.err "LOGGER NOT INITIALIZED".toList] ∧ shown [.err "LOGGER NOT INITIALIZED:".toList] = [] := ⟨rfl, rfl⟩

end G3.Props
