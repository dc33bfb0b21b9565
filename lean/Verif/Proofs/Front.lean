import Verif.Spec.Front
import Mathlib.Data.List.Basic
/- Lemmas about the front end. -/
namespace G3
open G3.Spec

theorem saves_append (a b : List Eff) : saves (a ++ b) = saves a ++ saves b := by simp [saves]
theorem handed_append (a b : List Eff) : handed (a ++ b) = handed a ++ handed b := by simp [handed]
theorem started_append (x : Nat) (a b : List Eff) : started x (a ++ b) = started x a + started x b := by simp [started]

theorem fRun_cons (E : Env) (src : Src) (d : Nat) (f : Front) (op : FOp) (ops : List FOp) :
    fRun E src d f (op :: ops) =
      if (fStep E src d f op).2.2.goesOn then
        ((fRun E src d (fStep E src d f op).1 ops).1,
         (fStep E src d f op).2.1 ++ (fRun E src d (fStep E src d f op).1 ops).2.1,
         (fRun E src d (fStep E src d f op).1 ops).2.2)
      else fStep E src d f op := rfl

theorem fRun_append_ok (E : Env) (src : Src) (d : Nat) (l1 l2 : List FOp) (f : Front)
    (h : (fRun E src d f l1).2.2 = .ok) :
    fRun E src d f (l1 ++ l2) =
      ((fRun E src d (fRun E src d f l1).1 l2).1,
       (fRun E src d f l1).2.1 ++ (fRun E src d (fRun E src d f l1).1 l2).2.1,
       (fRun E src d (fRun E src d f l1).1 l2).2.2) := by
  induction l1 generalizing f with
  | nil => simp [fRun]
  | cons op l ih =>
    rw [List.cons_append]
    rw [fRun_cons] at h
    rw [fRun_cons, fRun_cons]
    by_cases hg : (fStep E src d f op).2.2.goesOn = true
    · simp only [hg, if_true] at h ⊢
      rw [ih _ h]
      simp
    · simp only [hg] at h
      simp only [Bool.false_eq_true, if_false] at h
      rw [h] at hg
      exact absurd rfl hg

/-- The shut-down on behalf of one worker, case by case. -/
theorem sdActive_eq (warn : Bool) (m : LogMessage) (f : Front) (w : Option Nat) :
    shutDownLoggingForActiveOnly warn m f w =
      match f.inst, w with
      | some a, some b =>
        if a = b then ((shutDownLogging f, [], .ok), true) else ((f, if warn then [.save a m] else [], .ok), false)
      | _, _ => ((shutDownLogging f, [], .ok), true) := by
  unfold shutDownLoggingForActiveOnly pushMessageToLogger
  cases hf : f.inst with
  | none => simp
  | some a =>
    cases w with
    | none => simp
    | some b =>
      by_cases hab : a = b
      · simp [hab]
      · have hba : ¬ b = a := fun h => hab h.symm
        cases warn <;> simp [hab, hba]

theorem calm_tail {op : FOp} {ops : List FOp} (h : calm (op :: ops)) : calm ops :=
  fun m t n hm => h m t n (List.mem_cons_of_mem _ hm)
theorem noInit_tail {op : FOp} {ops : List FOp} (h : noInit (op :: ops)) : noInit ops :=
  fun w hm => h w (List.mem_cons_of_mem _ hm)

/-- Before the first initialisation nothing is handed to a worker; the first message is kept. -/
theorem pre_run (E : Env) (src : Src) (d : Nat) (ops : List FOp) (hc : calm ops) (hi : noInit ops) (f : Front)
    (h0 : f.inst = none) (h1 : f.setOnce = false → f.first = none) :
    (fRun E src d f ops).2.2 = .ok ∧ (fRun E src d f ops).1.inst = none ∧ saves (fRun E src d f ops).2.1 = [] ∧
    (fRun E src d f ops).1.saveOnce = f.saveOnce ∧
    (fRun E src d f ops).1.first = (if f.setOnce then f.first else (firstLog ops).map keptForm) := by
  induction ops generalizing f with
  | nil =>
    refine ⟨rfl, h0, rfl, rfl, ?_⟩
    simp only [fRun, firstLog]
    cases hs : f.setOnce
    · simp [h1 hs]
    · rfl
  | cons op ops ih =>
    have hc' := calm_tail hc
    have hi' := noInit_tail hi
    cases op with
    | log m =>
      rw [fRun_cons]
      have hst : fStep E src d f (.log m) = pushMessageToLogger f m := rfl
      rw [hst]
      unfold pushMessageToLogger
      rw [h0]
      cases hs : f.setOnce with
      | true =>
        simp only [if_true, Stat.goesOn, List.nil_append]
        have := ih hc' hi' f h0 h1
        rw [hs] at this
        simpa using this
      | false =>
        simp only [Bool.false_eq_true, if_false, Stat.goesOn, if_true]
        obtain ⟨a, b, c, e, g⟩ := ih hc' hi' { f with inst := none, setOnce := true, first := some (keptForm m) } rfl (by simp)
        refine ⟨a, b, ?_, e, ?_⟩
        · rw [saves_append]
          have : saves [Eff.err ("LOGGER NOT INITIALIZED:\n\t\t".toList ++ m.message ++ "\n".toList)] = [] := rfl
          rw [this]; exact c
        · exact g
    | init w => exact absurd (by simp) (hi w)
    | shutdown =>
      rw [fRun_cons]
      have hst : fStep E src d f .shutdown = ({ f with inst := none }, [], .ok) := rfl
      rw [hst]
      simp only [Stat.goesOn, if_true, List.nil_append, firstLog]
      exact ih hc' hi' { f with inst := none } rfl h1
    | shutdownActive warn m w =>
      rw [fRun_cons]
      have hst : fStep E src d f (.shutdownActive warn m w) = ({ f with inst := none }, [], .ok) := by
        show (shutDownLoggingForActiveOnly warn m f w).1 = _
        unfold shutDownLoggingForActiveOnly
        rw [if_neg (by rw [h0]; simp)]
        rfl
      rw [hst]
      simp only [Stat.goesOn, if_true, List.nil_append, firstLog]
      exact ih hc' hi' { f with inst := none } rfl h1
    | setHook hk => exact ih hc' hi' (setFatalPreLoggingHook f (some hk)) h0 h1
    | setHandler hk => exact ih hc' hi' (setFatalExitHandler f hk) h0 h1
    | fatal m t n => exact absurd (by simp) (hc m t n)

/-- After the first initialisation the deliveries are those of the specification. -/
theorem post_run (E : Env) (src : Src) (d : Nat) (ops : List FOp) (hc : calm ops) (f : Front) (h1 : f.saveOnce = true) :
    saves (fRun E src d f ops).2.1 = deliveries f.inst ops := by
  induction ops generalizing f with
  | nil => cases hf : f.inst <;> simp [fRun, deliveries, saves]
  | cons op ops ih =>
    have hc' := calm_tail hc
    cases op with
    | log m =>
      rw [fRun_cons]
      have hst : fStep E src d f (.log m) = pushMessageToLogger f m := rfl
      rw [hst]
      unfold pushMessageToLogger
      cases hf : f.inst with
      | none =>
        cases hs : f.setOnce with
        | true =>
          simp only [if_true, Stat.goesOn, List.nil_append, deliveries]
          rw [ih hc' f h1, hf]
        | false =>
          simp only [Bool.false_eq_true, if_false, Stat.goesOn, if_true, deliveries]
          rw [saves_append, ih hc' _ (by exact h1)]
          rfl
      | some w =>
        simp only [Stat.goesOn, if_true, deliveries]
        rw [saves_append, ih hc' f h1, hf]
        rfl
    | init w =>
      rw [fRun_cons]
      have hst : fStep E src d f (.init w) = initializeLogging src f w := rfl
      rw [hst]
      unfold initializeLogging
      have hin : saves (if f.installed = true then [] else [Eff.install]) = [] := by split <;> rfl
      cases hf : f.inst with
      | none =>
        cases w with
        | none =>
          simp only [Stat.goesOn, Bool.false_eq_true, if_false, deliveries]
          rw [saves_append, hin]; rfl
        | some w =>
          simp only [h1, if_true, Stat.goesOn, List.append_nil, deliveries]
          rw [saves_append, hin, ih hc' _ (by rfl), List.nil_append]
      | some a =>
        have : deliveries (some a) (.init w :: ops) = [] := by cases w <;> rfl
        rw [this]
        simp only [Stat.goesOn, Bool.false_eq_true, if_false]
        rw [saves_append, hin]; rfl
    | shutdown =>
      rw [fRun_cons]
      have hst : fStep E src d f .shutdown = ({ f with inst := none }, [], .ok) := rfl
      rw [hst]
      simp only [Stat.goesOn, if_true, List.nil_append]
      rw [ih hc' { f with inst := none } h1]
      cases f.inst <;> rfl
    | shutdownActive warn m w =>
      rw [fRun_cons]
      have hst : fStep E src d f (.shutdownActive warn m w) = (shutDownLoggingForActiveOnly warn m f w).1 := rfl
      rw [hst]
      have hoff : saves (fRun E src d (shutDownLogging f) ops).2.1 = deliveries none ops :=
        ih hc' (shutDownLogging f) h1
      rw [sdActive_eq]
      cases hf : f.inst with
      | none =>
        simp only [Stat.goesOn, if_true, List.nil_append]
        rw [hoff]; cases w <;> rfl
      | some a =>
        cases w with
        | none =>
          simp only [Stat.goesOn, if_true, List.nil_append]
          rw [hoff]; rfl
        | some b =>
          rw [deliveries]
          by_cases hab : a = b
          · simp only [if_pos hab, Stat.goesOn, if_true, List.nil_append]
            rw [hoff]
          · simp only [if_neg hab]
            cases warn with
            | true =>
              simp only [if_true, Stat.goesOn]
              rw [saves_append, ih hc' f h1, hf]
              rfl
            | false =>
              simp only [Bool.false_eq_true, if_false, Stat.goesOn, if_true, List.nil_append]
              rw [ih hc' f h1, hf]
    | setHook hk =>
      refine (ih hc' (setFatalPreLoggingHook f (some hk)) h1).trans ?_
      show deliveries f.inst ops = _
      cases f.inst <;> rfl
    | setHandler hk =>
      refine (ih hc' (setFatalExitHandler f hk) h1).trans ?_
      show deliveries f.inst ops = _
      cases f.inst <;> rfl
    | fatal m t n => exact absurd (by simp) (hc m t n)

/-! ### Fatal events -/

/-- Neither the stored hook nor anything it can install is `x`. -/
def clearOf (x : Nat) (f : Front) : Prop := ∀ h, f.hook = some h → h.id ≠ x ∧ x ∉ actsIds h.acts

theorem push_hook (f : Front) (m : LogMessage) : (pushMessageToLogger f m).1.hook = f.hook ∧
    (pushMessageToLogger f m).1.counter = f.counter ∧ (pushMessageToLogger f m).1.firstTrace = f.firstTrace ∧
    (pushMessageToLogger f m).2.2 = .ok ∧ handed (pushMessageToLogger f m).2.1 = [] ∧
    (∀ x, started x (pushMessageToLogger f m).2.1 = 0) ∧ (pushMessageToLogger f m).1.inst = f.inst ∧
    (pushMessageToLogger f m).1.handler = f.handler := by
  unfold pushMessageToLogger
  cases hf : f.inst with
  | none =>
    simp only
    split
    · exact ⟨rfl, rfl, rfl, rfl, rfl, fun _ => rfl, hf, rfl⟩
    · exact ⟨rfl, rfl, rfl, rfl, rfl, fun _ => rfl, rfl, rfl⟩
  | some w => exact ⟨rfl, rfl, rfl, rfl, rfl, fun _ => rfl, hf, rfl⟩

theorem fatalCall_props (E : Env) (f : Front) (m : FatalMessage) : (fatalCall E f m).1 = f ∧
    (∀ x, started x (fatalCall E f m).2.1 = 0) ∧ (∀ a ∈ handed (fatalCall E f m).2.1, a = m) := by
  unfold fatalCall
  cases hh : f.handler with
  | default =>
    simp only
    unfold pushFatalMessageToLogger
    cases f.inst with
    | none => exact ⟨rfl, fun _ => rfl, by simp [handed]⟩
    | some w => exact ⟨rfl, fun _ => rfl, by simp [handed]⟩
  | custom b => exact ⟨rfl, fun _ => rfl, by simp [handed]⟩

/-- Running hook steps never starts a hook that is neither stored nor installable. -/
theorem runActs_clear (x : Nat) (ev : Front → LogMessage → Str → Int → R)
    (hev : ∀ f m t n, clearOf x f → started x (ev f m t n).2.1 = 0 ∧ clearOf x (ev f m t n).1)
    (acts : List Act) (f : Front) (h : clearOf x f) (ha : x ∉ actsIds acts) :
    started x (runActs ev f acts).2.1 = 0 ∧ clearOf x (runActs ev f acts).1 := by
  induction acts generalizing f with
  | nil => exact ⟨rfl, h⟩
  | cons a acts ih =>
    rw [actsIds, List.mem_append, not_or] at ha
    cases a with
    | log m =>
      obtain ⟨p1, _, _, _, _, p6, _⟩ := push_hook f m
      have h' : clearOf x (pushMessageToLogger f m).1 := by intro k hk; rw [p1] at hk; exact h k hk
      obtain ⟨i1, i2⟩ := ih _ h' ha.2
      unfold runActs
      exact ⟨by simp only [started_append, p6, i1], i2⟩
    | fatal m t n =>
      obtain ⟨e1, e2⟩ := hev f m t n h
      unfold runActs
      simp only
      split
      · obtain ⟨i1, i2⟩ := ih _ e2 ha.2
        exact ⟨by simp only [started_append, e1, i1], i2⟩
      · exact ⟨e1, e2⟩
    | setHook id as =>
      unfold runActs
      apply ih _ _ ha.2
      intro k hk
      have hid := ha.1
      rw [actIds, List.mem_cons, not_or] at hid
      simp only [setFatalPreLoggingHook, Option.some.injEq] at hk
      subst hk
      exact ⟨fun he => hid.1 he.symm, hid.2⟩
    | throws => exact ⟨rfl, h⟩

theorem nothing_clear (x : Nat) (hx : x ≠ 0) (f : Front) (h : f.hook = some nothingHook) : clearOf x f := by
  intro k hk
  rw [h] at hk
  cases hk
  exact ⟨fun he => hx he.symm, by simp [nothingHook, actsIds]⟩

/-- The state in which the hook runs. -/
def prep (f : Front) (t : Str) : Front :=
  { f with hook := some nothingHook, counter := f.counter + 1, firstTrace := some (f.firstTrace.getD t) }

/-- The message handed over. -/
def fatalText (m : LogMessage) (t : Str) (first : Str) (c : Nat) : LogMessage :=
  { m with message := m.message ++ t ++ (if c > 1 then recursiveText first else []) }

theorem saveFatal_eq (E : Env) (d : Nat) (f : Front) (m : LogMessage) (t : Str) (n : Int) :
    saveFatalMessage E (d + 1) f m t n =
      match f.hook with
      | none => (prep f t, [], .badCall)
      | some h =>
        if (runActs (saveFatalMessage E d) (prep f t) h.acts).2.2 = .ok then
          ((fatalCall E (runActs (saveFatalMessage E d) (prep f t) h.acts).1
              (FatalMessage.new (fatalText m t (f.firstTrace.getD t) (runActs (saveFatalMessage E d) (prep f t) h.acts).1.counter) n)).1,
           .hook h.id :: (runActs (saveFatalMessage E d) (prep f t) h.acts).2.1 ++
            (fatalCall E (runActs (saveFatalMessage E d) (prep f t) h.acts).1
              (FatalMessage.new (fatalText m t (f.firstTrace.getD t) (runActs (saveFatalMessage E d) (prep f t) h.acts).1.counter) n)).2.1,
           (fatalCall E (runActs (saveFatalMessage E d) (prep f t) h.acts).1
              (FatalMessage.new (fatalText m t (f.firstTrace.getD t) (runActs (saveFatalMessage E d) (prep f t) h.acts).1.counter) n)).2.2)
        else ((runActs (saveFatalMessage E d) (prep f t) h.acts).1, .hook h.id :: (runActs (saveFatalMessage E d) (prep f t) h.acts).2.1,
          (runActs (saveFatalMessage E d) (prep f t) h.acts).2.2) := by
  obtain ⟨i, inst, fst, s1, s2, hook, c, ft, hd⟩ := f
  have key : ∀ (h : Hook) (first : Str) (r : R),
      (if r.2.2 = .ok then
        ((fatalCall E r.1 (FatalMessage.new (if r.1.counter > 1 then { m with message := m.message ++ t ++ recursiveText first } else { m with message := m.message ++ t }) n)).1,
          .hook h.id :: r.2.1 ++ (fatalCall E r.1 (FatalMessage.new (if r.1.counter > 1 then { m with message := m.message ++ t ++ recursiveText first } else { m with message := m.message ++ t }) n)).2.1,
          (fatalCall E r.1 (FatalMessage.new (if r.1.counter > 1 then { m with message := m.message ++ t ++ recursiveText first } else { m with message := m.message ++ t }) n)).2.2)
      else (r.1, .hook h.id :: r.2.1, r.2.2)) =
      (if r.2.2 = .ok then
        ((fatalCall E r.1 (FatalMessage.new (fatalText m t first r.1.counter) n)).1,
          .hook h.id :: r.2.1 ++ (fatalCall E r.1 (FatalMessage.new (fatalText m t first r.1.counter) n)).2.1,
          (fatalCall E r.1 (FatalMessage.new (fatalText m t first r.1.counter) n)).2.2)
      else (r.1, .hook h.id :: r.2.1, r.2.2)) := by
    intro h first r
    unfold fatalText
    by_cases h2 : r.1.counter > 1
    · simp only [if_pos h2]
    · simp only [if_neg h2, List.append_nil]
  rw [saveFatalMessage.eq_2]
  cases hook with
  | none => cases ft <;> rfl
  | some h =>
    cases ft with
    | none => exact key h t _
    | some t0 => exact key h t0 _

theorem cons_eq (a : Eff) (l : List Eff) : a :: l = [a] ++ l := rfl

theorem saveFatal_clear (E : Env) (x : Nat) (hx : x ≠ 0) (d : Nat) (f : Front) (m : LogMessage) (t : Str) (n : Int)
    (h : clearOf x f) :
    started x (saveFatalMessage E d f m t n).2.1 = 0 ∧ clearOf x (saveFatalMessage E d f m t n).1 := by
  induction d generalizing f m t n with
  | zero => exact ⟨rfl, h⟩
  | succ d ih =>
    rw [saveFatal_eq]
    cases hh : f.hook with
    | none => exact ⟨rfl, nothing_clear x hx _ rfl⟩
    | some k =>
      obtain ⟨k1, k2⟩ := h k hh
      have hk : started x [Eff.hook k.id] = 0 := by simp [started, k1]
      obtain ⟨r1, r2⟩ := runActs_clear x (saveFatalMessage E d) (fun f m t n hc => ih f m t n hc) k.acts _
        (nothing_clear x hx (prep f t) rfl) k2
      simp only
      split
      · obtain ⟨c1, c2, _⟩ := fatalCall_props E (runActs (saveFatalMessage E d) (prep f t) k.acts).1 (FatalMessage.new (fatalText m t (f.firstTrace.getD t) (runActs (saveFatalMessage E d) (prep f t) k.acts).1.counter) n)
        refine ⟨?_, by rw [c1]; exact r2⟩
        rw [List.cons_append, cons_eq, started_append, started_append, hk, c2, r1]
      · exact ⟨by rw [cons_eq, started_append, hk, r1], r2⟩

/-- A fatal event with a hook `h`: the hook is started exactly once and is gone afterwards. -/
theorem saveFatal_once (E : Env) (d : Nat) (f : Front) (m : LogMessage) (t : Str) (n : Int) (h : Hook)
    (hh : f.hook = some h) (h0 : h.id ≠ 0) (ha : h.id ∉ actsIds h.acts) :
    started h.id (saveFatalMessage E (d + 1) f m t n).2.1 = 1 ∧ clearOf h.id (saveFatalMessage E (d + 1) f m t n).1 := by
  rw [saveFatal_eq, hh]
  have hk : started h.id [Eff.hook h.id] = 1 := by simp [started]
  obtain ⟨r1, r2⟩ := runActs_clear h.id (saveFatalMessage E d) (fun f m t n hc => saveFatal_clear E h.id h0 d f m t n hc) h.acts _
    (nothing_clear h.id h0 (prep f t) rfl) ha
  simp only
  split
  · obtain ⟨c1, c2, _⟩ := fatalCall_props E (runActs (saveFatalMessage E d) (prep f t) h.acts).1 (FatalMessage.new (fatalText m t (f.firstTrace.getD t) (runActs (saveFatalMessage E d) (prep f t) h.acts).1.counter) n)
    refine ⟨?_, by rw [c1]; exact r2⟩
    rw [List.cons_append, cons_eq, started_append, started_append, hk, c2, r1]
  · exact ⟨by rw [cons_eq, started_append, hk, r1], r2⟩

/-- Marked as a recursive crash. -/
def Marked (first : Str) (fm : FatalMessage) : Prop := recursiveText first <:+ fm.base.message

/-- Hook steps never lower the count of fatal events and never change the first stack trace once there is one. -/
def Keeps (f g : Front) : Prop := f.counter ≤ g.counter ∧ ∀ t, f.firstTrace = some t → g.firstTrace = some t

theorem Keeps.refl (f : Front) : Keeps f f := ⟨Nat.le_refl _, fun _ h => h⟩
theorem Keeps.trans {f g h : Front} (a : Keeps f g) (b : Keeps g h) : Keeps f h :=
  ⟨Nat.le_trans a.1 b.1, fun t ht => b.2 t (a.2 t ht)⟩

theorem runActs_keeps (ev : Front → LogMessage → Str → Int → R) (hev : ∀ f m t n, Keeps f (ev f m t n).1)
    (acts : List Act) (f : Front) : Keeps f (runActs ev f acts).1 := by
  induction acts generalizing f with
  | nil => exact Keeps.refl f
  | cons a acts ih =>
    cases a with
    | log m =>
      obtain ⟨_, p2, p3, _, _⟩ := push_hook f m
      unfold runActs
      exact Keeps.trans ⟨Nat.le_of_eq p2.symm, fun t h => by rw [p3]; exact h⟩ (ih _)
    | fatal m t n =>
      unfold runActs
      simp only
      split
      · exact (hev f m t n).trans (ih _)
      · exact hev f m t n
    | setHook id as =>
      unfold runActs
      exact Keeps.trans ⟨Nat.le_refl _, fun _ h => h⟩ (ih (setFatalPreLoggingHook f (some ⟨id, as⟩)))
    | throws => exact Keeps.refl f

theorem prep_keeps (f : Front) (t : Str) : Keeps f (prep f t) :=
  ⟨Nat.le_succ _, fun u h => by simp [prep, h]⟩

theorem saveFatal_keeps (E : Env) (d : Nat) (f : Front) (m : LogMessage) (t : Str) (n : Int) :
    Keeps f (saveFatalMessage E d f m t n).1 := by
  induction d generalizing f m t n with
  | zero => exact Keeps.refl f
  | succ d ih =>
    rw [saveFatal_eq]
    cases hh : f.hook with
    | none => exact prep_keeps f t
    | some k =>
      have hr := (prep_keeps f t).trans (runActs_keeps (saveFatalMessage E d) (fun f m t n => ih f m t n) k.acts (prep f t))
      simp only
      split
      · simp only [(fatalCall_props _ _ _).1]; exact hr
      · exact hr

theorem runActs_marked (first : Str) (ev : Front → LogMessage → Str → Int → R)
    (hk : ∀ f m t n, Keeps f (ev f m t n).1)
    (hev : ∀ f m t n, 1 ≤ f.counter → f.firstTrace = some first → ∀ a ∈ handed (ev f m t n).2.1, Marked first a)
    (acts : List Act) (f : Front) (h : 1 ≤ f.counter) (h2 : f.firstTrace = some first) :
    ∀ a ∈ handed (runActs ev f acts).2.1, Marked first a := by
  induction acts generalizing f with
  | nil => simp [runActs, handed]
  | cons a acts ih =>
    cases a with
    | log m =>
      obtain ⟨_, p2, p3, _, p5, _, _⟩ := push_hook f m
      unfold runActs
      simp only [handed_append, p5, List.nil_append]
      exact ih (pushMessageToLogger f m).1 (by rw [p2]; exact h) (by rw [p3]; exact h2)
    | fatal m t n =>
      unfold runActs
      simp only
      split
      · intro a ha
        rw [handed_append, List.mem_append] at ha
        exact ha.elim (hev f m t n h h2 a) (ih _ (Nat.le_trans h (hk f m t n).1) ((hk f m t n).2 _ h2) a)
      · exact hev f m t n h h2
    | setHook id as =>
      unfold runActs
      exact ih _ h h2
    | throws => simp [runActs, handed]

/-- While a fatal event is being prepared every further one is marked. -/
theorem saveFatal_marked (E : Env) (first : Str) (d : Nat) (f : Front) (m : LogMessage) (t : Str) (n : Int)
    (h : 1 ≤ f.counter) (h2 : f.firstTrace = some first) :
    ∀ a ∈ handed (saveFatalMessage E d f m t n).2.1, Marked first a := by
  induction d generalizing f m t n with
  | zero => simp [saveFatalMessage, handed]
  | succ d ih =>
    rw [saveFatal_eq]
    cases hh : f.hook with
    | none => simp [handed]
    | some k =>
      have hp2 : (prep f t).firstTrace = some first := by simp [prep, h2]
      have hin := runActs_marked first (saveFatalMessage E d) (fun f m t n => saveFatal_keeps E d f m t n)
        (fun f m t n a b => ih f m t n a b) k.acts (prep f t) (Nat.le_add_left 1 _) hp2
      have hkp := (runActs_keeps (saveFatalMessage E d) (fun f m t n => saveFatal_keeps E d f m t n) k.acts (prep f t)).1
      have hc2 : (runActs (saveFatalMessage E d) (prep f t) k.acts).1.counter > 1 :=
        Nat.lt_of_lt_of_le (show 1 < f.counter + 1 by omega) hkp
      have hno : handed [Eff.hook k.id] = [] := rfl
      simp only
      split
      · intro a ha
        rw [List.cons_append, cons_eq, handed_append, handed_append, hno, List.nil_append, List.mem_append] at ha
        refine ha.elim (hin a) (fun hb => ?_)
        rw [(fatalCall_props _ _ _).2.2 a hb]
        show recursiveText first <:+ m.message ++ t ++ (if _ > 1 then recursiveText (f.firstTrace.getD t) else [])
        rw [if_pos hc2, h2]
        exact List.suffix_append _ _
      · rw [cons_eq, handed_append, hno, List.nil_append]; exact hin

/-- A peaceful hook changes nothing that the fatal path looks at. -/
theorem peaceful_run (ev : Front → LogMessage → Str → Int → R) (acts : List Act) (hp : peaceful acts) (f : Front) :
    (runActs ev f acts).2.2 = .ok ∧ (runActs ev f acts).1.counter = f.counter ∧ handed (runActs ev f acts).2.1 = [] ∧
      (runActs ev f acts).1.inst = f.inst ∧ (runActs ev f acts).1.handler = f.handler := by
  induction acts generalizing f with
  | nil => exact ⟨rfl, rfl, rfl, rfl, rfl⟩
  | cons a acts ih =>
    cases a with
    | log m =>
      obtain ⟨_, p2, p3, _, p5, _, p7, p8⟩ := push_hook f m
      obtain ⟨a, b, c, d, e⟩ := ih hp (pushMessageToLogger f m).1
      unfold runActs
      exact ⟨a, b.trans p2, by simp only [handed_append, p5, c, List.nil_append], d.trans p7, e.trans p8⟩
    | fatal m t n => exact absurd hp (by simp [peaceful])
    | setHook id as => exact absurd hp (by simp [peaceful])
    | throws => exact absurd hp (by simp [peaceful])

theorem init_save (src : Src) (f : Front) (w : Option Nat) (h : f.saveOnce = true) :
    (initializeLogging src f w).1.saveOnce = true := by
  obtain ⟨i, inst, fst, s1, s2, hook, c, ft, hd⟩ := f
  cases h
  cases inst <;> cases w <;> rfl

theorem init_save' (src : Src) (f : Front) (w : Nat) (h : f.inst = none) :
    (initializeLogging src f (some w)).1.saveOnce = true ∧ (initializeLogging src f (some w)).2.2 = .ok := by
  obtain ⟨i, inst, fst, s1, s2, hook, c, ft, hd⟩ := f
  cases h
  cases s2 <;> exact ⟨rfl, rfl⟩

theorem keep_save (E : Env) (src : Src) (d : Nat) (ops : List FOp) (hc : calm ops) (f : Front) (h : f.saveOnce = true) :
    (fRun E src d f ops).1.saveOnce = true := by
  induction ops generalizing f with
  | nil => exact h
  | cons op ops ih =>
    have hs : (fStep E src d f op).1.saveOnce = true := by
      cases op with
      | log m =>
        show (pushMessageToLogger f m).1.saveOnce = true
        unfold pushMessageToLogger; split
        · split <;> exact h
        · exact h
      | init w => exact init_save src f w h
      | shutdown => exact h
      | shutdownActive warn m w =>
        show (shutDownLoggingForActiveOnly warn m f w).1.1.saveOnce = true
        rw [sdActive_eq]
        split
        · split <;> exact h
        · exact h
      | setHook hk => exact h
      | setHandler hk => exact h
      | fatal m t n => exact absurd (by simp) (hc m t n)
    rw [fRun_cons]
    split
    · exact ih (calm_tail hc) _ hs
    · exact hs

theorem logs_ok (E : Env) (src : Src) (d : Nat) (ms : List LogMessage) (f : Front) :
    (fRun E src d f (ms.map .log)).2.2 = .ok := by
  induction ms generalizing f with
  | nil => rfl
  | cons m ms ih =>
    rw [List.map_cons, fRun_cons]
    have h : (fStep E src d f (.log m)).2.2 = .ok := (push_hook f m).2.2.2.1
    rw [if_pos (by rw [h]; rfl)]
    exact ih _

end G3
