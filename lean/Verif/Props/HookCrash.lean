import Verif.Spec.HookCrash
import Verif.Props.Front
/-
C121: a crash inside a pre-fatal hook.
-/
namespace G3.Props
open G3 G3.Spec

theorem handedTexts_append (a b : List Eff) : handedTexts (a ++ b) = handedTexts a ++ handedTexts b := by simp [handedTexts]

/-- The state in which a hook runs. -/
def hcPrep (s : HCState) (t : Str) : HCState :=
  { s with hook := some HHook.nothing, front := { s.front with counter := s.front.counter + 1, firstTrace := some (s.front.firstTrace.getD t) } }

theorem hcEvent_eq (E : Env) (d : Nat) (s : HCState) (m : LogMessage) (t : Str) (n : Int) :
    hcEvent E (d + 1) s m t n = match s.hook with
      | none => (hcPrep s t, [], .badCall)
      | some h =>
        let r := hcActs (hcEvent E d) (hcPrep s t) h.acts
        if r.2.2 = .ok then
          let r' := fatalCall E r.1.front (FatalMessage.new (fatalText m t (s.front.firstTrace.getD t) r.1.front.counter) n)
          ({ r.1 with front := r'.1 }, .hook h.id :: r.2.1 ++ r'.2.1, r'.2.2.toHC)
        else (r.1, .hook h.id :: r.2.1, r.2.2) := by
  obtain ⟨⟨i, inst, fst, s1, s2, hk, c, ft, hd⟩, hook, en, hdl, mk, pd⟩ := s
  have key : ∀ (h : HHook) (first : Str) (r : HCR),
      (if r.2.2 = .ok then
        let r' := fatalCall E r.1.front (FatalMessage.new (if r.1.front.counter > 1 then { m with message := m.message ++ t ++ recursiveText first } else { m with message := m.message ++ t }) n)
        (({ r.1 with front := r'.1 }, .hook h.id :: r.2.1 ++ r'.2.1, r'.2.2.toHC) : HCR)
      else (r.1, .hook h.id :: r.2.1, r.2.2)) =
      (if r.2.2 = .ok then
        let r' := fatalCall E r.1.front (FatalMessage.new (fatalText m t first r.1.front.counter) n)
        (({ r.1 with front := r'.1 }, .hook h.id :: r.2.1 ++ r'.2.1, r'.2.2.toHC) : HCR)
      else (r.1, .hook h.id :: r.2.1, r.2.2)) := by
    intro h first r
    unfold fatalText
    by_cases h2 : r.1.front.counter > 1
    · simp only [if_pos h2]
    · simp only [if_neg h2, List.append_nil]
  rw [hcEvent.eq_2]
  cases hook with
  | none => cases ft <;> rfl
  | some h =>
    cases ft with
    | none => exact key h t _
    | some t0 => exact key h t0 _

/-- A fatal event with no hook to run: the message is handed over and the thread waits. -/
theorem plain_event (E : Env) (d w : Nat) (s : HCState) (m : LogMessage) (t : Str) (n : Int) (hi : s.front.inst = some w) (hd : s.front.handler = .default)
    (hh : s.hook = some HHook.nothing) :
    (hcEvent E (d + 1) s m t n).2.2 = .blocked ∧ saves (hcEvent E (d + 1) s m t n).2.1 = [] ∧
    handedTexts (hcEvent E (d + 1) s m t n).2.1 = [(w, fatalEntry m t (s.front.firstTrace.getD t) (decide (s.front.counter ≥ 1)), n)] := by
  rw [hcEvent_eq, hh]
  have hr : hcActs (hcEvent E d) (hcPrep s t) HHook.nothing.acts = (hcPrep s t, [], .ok) := rfl
  dsimp only
  rw [hr]
  dsimp only
  rw [if_pos rfl]
  have hf : ∀ fm, fatalCall E (hcPrep s t).front fm = ((hcPrep s t).front, [.fatal w fm], .blocked) := by
    intro fm
    unfold fatalCall pushFatalMessageToLogger
    rw [show (hcPrep s t).front.handler = .default from hd, show (hcPrep s t).front.inst = some w from hi]
  rw [hf]
  refine ⟨rfl, rfl, ?_⟩
  show [(w, (FatalMessage.new (fatalText m t (s.front.firstTrace.getD t) (hcPrep s t).front.counter) n).base.message, n)] = _
  rw [show (FatalMessage.new (fatalText m t (s.front.firstTrace.getD t) (hcPrep s t).front.counter) n).base.message =
    (fatalText m t (s.front.firstTrace.getD t) (hcPrep s t).front.counter).message from rfl, fatalEntry_eq]
  have : decide ((hcPrep s t).front.counter > 1) = decide (s.front.counter ≥ 1) := by
    show decide (s.front.counter + 1 > 1) = _
    congr 1
    exact propext ⟨fun h => by omega, fun h => by omega⟩
  rw [this]

theorem blocked_signal (ev : HCState → LogMessage → Str → Int → HCR) (s : HCState) (sig : Int) (m : LogMessage) (t : Str) (h0 : s.entered = 0)
    (hb : (ev { s with mask := sig :: s.mask, entered := s.entered + 1 } m t sig).2.2 = .blocked) :
    hcSignal ev s sig m t = ev { s with mask := sig :: s.mask, entered := s.entered + 1 } m t sig := by
  unfold hcSignal
  simp only [h0, ne_eq, not_true_eq_false, if_false]
  rw [h0] at hb
  rw [hb]
  simp

theorem late_signal (ev : HCState → LogMessage → Str → Int → HCR) (s : HCState) (sig : Int) (m : LogMessage) (t : Str) (h0 : s.entered ≠ 0) :
    hcSignal ev s sig m t = ({ s with mask := sig :: s.mask, entered := s.entered + 1 }, [], .sleeps) := by
  unfold hcSignal
  simp only [ne_eq, h0, not_false_eq_true, if_true]

/-- How the steps of a hook end. -/
def actsEnd : HookFate → HCStat
  | .returns => .ok
  | .reports _ _ _ => .blocked
  | .kills n => .killed n
  | .hangs => .sleeps
  | .throws => .thrown

/-- What a hook makes the thread hand over, the first stack dump being `first`. -/
def actsReport (w : Nat) (first : Str) : HookFate → List (Nat × Str × Int)
  | .reports m t n => [(w, fatalEntry m t first true, n)]
  | _ => []

/-- The state in which a hook that sets no hook finds itself: no further hook to run. -/
structure InHook (w : Nat) (first : Str) (s : HCState) : Prop where
  inst : s.front.inst = some w
  handler : s.front.handler = .default
  hook : s.hook = some HHook.nothing
  counter : s.front.counter ≥ 1
  first : s.front.firstTrace = some first

/-- A fatal event in a hook. -/
theorem hook_event {w : Nat} {first : Str} {s : HCState} (h : InHook w first s) (E : Env) (d : Nat) (m : LogMessage) (t : Str) (n : Int) :
    (hcEvent E (d + 1) s m t n).2.2 = .blocked ∧ saves (hcEvent E (d + 1) s m t n).2.1 = [] ∧
    handedTexts (hcEvent E (d + 1) s m t n).2.1 = [(w, fatalEntry m t first true, n)] := by
  have := plain_event E d w s m t n h.inst h.handler h.hook
  rw [h.first, decide_eq_true h.counter] at this
  exact this

/-- A handled signal in a hook. -/
theorem hook_signal {w : Nat} {first : Str} {s : HCState} (h : InHook w first s) (E : Env) (d : Nat) (m : LogMessage) (t : Str) (n : Int)
    (hn : n ∈ s.handled) :
    (hcSignal (hcEvent E (d + 1)) s n m t).2.2 = actsEnd (signalFate s.handled (decide (s.entered = 0)) n m t) ∧
    saves (hcSignal (hcEvent E (d + 1)) s n m t).2.1 = [] ∧
    handedTexts (hcSignal (hcEvent E (d + 1)) s n m t).2.1 = actsReport w first (signalFate s.handled (decide (s.entered = 0)) n m t) := by
  unfold signalFate
  rw [if_neg (fun h => h hn)]
  by_cases h0 : s.entered = 0
  · have h' : InHook w first { s with mask := n :: s.mask, entered := s.entered + 1 } := ⟨h.inst, h.handler, h.hook, h.counter, h.first⟩
    have := hook_event h' E d m t n
    rw [blocked_signal _ s n m t h0 this.1]
    simp only [h0, decide_true, if_true]
    rw [h0] at this
    exact this
  · rw [late_signal _ s n m t h0]
    simp [h0, actsEnd, actsReport, saves, handedTexts]

theorem signalFate_ne (handled : List Int) (b : Bool) (n : Int) (m : LogMessage) (t : Str) : actsEnd (signalFate handled b n m t) ≠ .ok := by
  unfold signalFate
  split
  · simp [actsEnd]
  · split <;> simp [actsEnd]

/-- The steps of a hook. -/
theorem acts_fate (E : Env) (d w : Nat) (first : Str) (as : List HAct) (hf : flat as) : ∀ (s : HCState), InHook w first s →
    (hcActs (hcEvent E (d + 1)) s as).2.2 = actsEnd (hookFate s.handled s.mask (decide (s.entered = 0)) as) ∧
    saves (hcActs (hcEvent E (d + 1)) s as).2.1 = (hookLogs s.mask as).map (fun m => (w, m)) ∧
    handedTexts (hcActs (hcEvent E (d + 1)) s as).2.1 = actsReport w first (hookFate s.handled s.mask (decide (s.entered = 0)) as) ∧
    ((hcActs (hcEvent E (d + 1)) s as).2.2 = .ok → (hcActs (hcEvent E (d + 1)) s as).1.front = s.front) := by
  induction as with
  | nil => exact fun s _ => ⟨rfl, rfl, rfl, fun _ => rfl⟩
  | cons a r ih =>
    intro s h
    have stop : ∀ (x : HCR) (fate : HookFate), hcFatalAct (hcEvent E (d + 1)) s a = x →
        (hcActs (hcEvent E (d + 1)) s (a :: r) = if x.2.2 = .ok then
          ((hcActs (hcEvent E (d + 1)) x.1 r).1, x.2.1 ++ (hcActs (hcEvent E (d + 1)) x.1 r).2.1, (hcActs (hcEvent E (d + 1)) x.1 r).2.2) else x) →
        hookLogs s.mask (a :: r) = [] → hookFate s.handled s.mask (decide (s.entered = 0)) (a :: r) = fate → actsEnd fate ≠ .ok →
        x.2.2 = actsEnd fate ∧ saves x.2.1 = [] ∧ handedTexts x.2.1 = actsReport w first fate →
        (hcActs (hcEvent E (d + 1)) s (a :: r)).2.2 = actsEnd (hookFate s.handled s.mask (decide (s.entered = 0)) (a :: r)) ∧
        saves (hcActs (hcEvent E (d + 1)) s (a :: r)).2.1 = (hookLogs s.mask (a :: r)).map (fun m => (w, m)) ∧
        handedTexts (hcActs (hcEvent E (d + 1)) s (a :: r)).2.1 = actsReport w first (hookFate s.handled s.mask (decide (s.entered = 0)) (a :: r)) ∧
        ((hcActs (hcEvent E (d + 1)) s (a :: r)).2.2 = .ok → (hcActs (hcEvent E (d + 1)) s (a :: r)).1.front = s.front) := by
      rintro x fate - h1 h2 h3 h4 ⟨e1, e2, e3⟩
      have hx : x.2.2 ≠ .ok := by rw [e1]; exact h4
      rw [h1, if_neg hx, h2, h3]
      exact ⟨e1, e2, e3, fun hh => absurd hh hx⟩
    cases a with
    | log m =>
      have hp : pushMessageToLogger s.front m = (s.front, [.save w m], .ok) := by unfold pushMessageToLogger; rw [h.inst]
      have e : hcActs (hcEvent E (d + 1)) s (.log m :: r) =
          ((hcActs (hcEvent E (d + 1)) s r).1, .save w m :: (hcActs (hcEvent E (d + 1)) s r).2.1, (hcActs (hcEvent E (d + 1)) s r).2.2) := by
        show (let r0 := pushMessageToLogger s.front m
              let r' := hcActs (hcEvent E (d + 1)) { s with front := r0.1 } r
              ((r'.1, r0.2.1 ++ r'.2.1, r'.2.2) : HCR)) = _
        rw [hp]
        rfl
      obtain ⟨i1, i2, i3, i4⟩ := ih hf s h
      rw [e]
      exact ⟨i1, (by
        show (w, m) :: saves (hcActs (hcEvent E (d + 1)) s r).2.1 = _
        rw [i2]; rfl), i3, i4⟩
    | setHook id acts => exact absurd hf (by simp [flat])
    | stmt m t n =>
      exact stop _ (.reports m t n) rfl rfl rfl rfl (by simp [actsEnd]) (hook_event h E d m t n)
    | throws => exact stop _ .throws rfl rfl rfl rfl (by simp [actsEnd]) ⟨rfl, rfl, rfl⟩
    | crash n m t =>
      by_cases hm : n ∈ s.mask
      · refine stop (s, [], .killed n) (.kills n) ?_ ?_ rfl ?_ (by simp [actsEnd]) ⟨rfl, rfl, rfl⟩
        · simp [hcFatalAct, hm]
        · simp [hcActs, hcFatalAct, hm]
        · simp [hookFate, hm]
      · by_cases hh : n ∈ s.handled
        · have e : hcFatalAct (hcEvent E (d + 1)) s (.crash n m t) = hcSignal (hcEvent E (d + 1)) s n m t := by
            unfold hcFatalAct
            dsimp only
            rw [if_neg (show ¬ (n ∈ s.mask ∨ n ∉ s.handled) from fun hx => hx.elim hm (fun h2 => h2 hh)), if_neg]
            rw [(hook_signal h E d m t n hh).1]
            exact signalFate_ne _ _ _ _ _
          refine stop _ (signalFate s.handled (decide (s.entered = 0)) n m t) e ?_ rfl ?_ (signalFate_ne _ _ _ _ _) (hook_signal h E d m t n hh)
          · rw [← e]; rfl
          · simp [hookFate, hm]
        · refine stop (s, [], .killed n) (.kills n) ?_ ?_ rfl ?_ (by simp [actsEnd]) ⟨rfl, rfl, rfl⟩
          · simp [hcFatalAct, hh]
          · simp [hcActs, hcFatalAct, hh]
          · simp [hookFate, hm, signalFate, hh]
    | raise n m t =>
      by_cases hm : n ∈ s.mask
      · obtain ⟨i1, i2, i3, i4⟩ := ih hf { s with pending := n :: s.pending } ⟨h.inst, h.handler, h.hook, h.counter, h.first⟩
        have e : hcActs (hcEvent E (d + 1)) s (.raise n m t :: r) = hcActs (hcEvent E (d + 1)) { s with pending := n :: s.pending } r := by
          show (let r0 := hcFatalAct (hcEvent E (d + 1)) s (.raise n m t)
                if r0.2.2 = .ok then
                  let r' := hcActs (hcEvent E (d + 1)) r0.1 r
                  ((r'.1, r0.2.1 ++ r'.2.1, r'.2.2) : HCR)
                else r0) = _
          simp only [hcFatalAct, if_pos hm, if_true, List.nil_append]
        rw [e]
        have e1 : hookFate s.handled s.mask (decide (s.entered = 0)) (.raise n m t :: r) = hookFate s.handled s.mask (decide (s.entered = 0)) r := by
          simp [hookFate, hm]
        have e2 : hookLogs s.mask (.raise n m t :: r) = hookLogs s.mask r := by simp [hookLogs, hm]
        rw [e1, e2]
        exact ⟨i1, i2, i3, i4⟩
      · have e2 : hookLogs s.mask (.raise n m t :: r) = [] := by simp [hookLogs, hm]
        by_cases hh : n ∈ s.handled
        · have e : hcFatalAct (hcEvent E (d + 1)) s (.raise n m t) = hcSignal (hcEvent E (d + 1)) s n m t := by
            simp [hcFatalAct, hm, hh]
          refine stop _ (signalFate s.handled (decide (s.entered = 0)) n m t) e ?_ e2 ?_ (signalFate_ne _ _ _ _ _) (hook_signal h E d m t n hh)
          · rw [← e]; rfl
          · simp [hookFate, hm]
        · refine stop (s, [], .killed n) (.kills n) ?_ ?_ e2 ?_ (by simp [actsEnd]) ⟨rfl, rfl, rfl⟩
          · simp [hcFatalAct, hh, hm]
          · simp [hcActs, hcFatalAct, hh, hm]
          · simp [hookFate, hm, signalFate, hh]
    | abort m t =>
      by_cases hh : SIGABRT ∈ s.handled
      · have e : hcFatalAct (hcEvent E (d + 1)) s (.abort m t) = hcSignal (hcEvent E (d + 1)) s SIGABRT m t := by
          unfold hcFatalAct
          dsimp only
          rw [if_neg (show ¬ SIGABRT ∉ s.handled from fun h2 => h2 hh), if_neg]
          rw [(hook_signal h E d m t SIGABRT hh).1]
          exact signalFate_ne _ _ _ _ _
        refine stop _ (signalFate s.handled (decide (s.entered = 0)) SIGABRT m t) e ?_ rfl rfl (signalFate_ne _ _ _ _ _) (hook_signal h E d m t SIGABRT hh)
        rw [← e]; rfl
      · refine stop (s, [], .killed SIGABRT) (.kills SIGABRT) ?_ ?_ rfl ?_ (by simp [actsEnd]) ⟨rfl, rfl, rfl⟩
        · simp [hcFatalAct, hh]
        · simp [hcActs, hcFatalAct, hh]
        · simp [hookFate, signalFate, hh]

/-- A fatal event whose hook sets no hook. -/
theorem event_fate (E : Env) (d w : Nat) (s : HCState) (h : HHook) (m : LogMessage) (t : Str) (n : Int) (hi : s.front.inst = some w)
    (hd : s.front.handler = .default) (hc : s.front.counter = 0) (ht : s.front.firstTrace = none) (hh : s.hook = some h) (hf : flat h.acts) :
    (hcEvent E (d + 2) s m t n).2.2 = outerEnd false (hookFate s.handled s.mask (decide (s.entered = 0)) h.acts) ∧
    saves (hcEvent E (d + 2) s m t n).2.1 = (hookLogs s.mask h.acts).map (fun m => (w, m)) ∧
    handedTexts (hcEvent E (d + 2) s m t n).2.1 = outerReport w (.stmt m t n) (hookFate s.handled s.mask (decide (s.entered = 0)) h.acts) ∧
    (hcEvent E (d + 2) s m t n).2.1.head? = some (.hook h.id) := by
  have hI : InHook w t (hcPrep s t) := ⟨hi, hd, rfl, Nat.le_add_left _ _, by show some (s.front.firstTrace.getD t) = _; rw [ht]; rfl⟩
  obtain ⟨a1, a2, a3, a4⟩ := acts_fate E d w t h.acts hf (hcPrep s t) hI
  change _ = actsEnd (hookFate s.handled s.mask (decide (s.entered = 0)) h.acts) at a1
  change _ = actsReport w t (hookFate s.handled s.mask (decide (s.entered = 0)) h.acts) at a3
  rw [hcEvent_eq, hh]
  dsimp only
  generalize hcActs (hcEvent E (d + 1)) (hcPrep s t) h.acts = r at *
  generalize hookFate s.handled s.mask (decide (s.entered = 0)) h.acts = fate at *
  by_cases hr : r.2.2 = .ok
  · have hfate : fate = .returns := by
      rw [hr] at a1
      cases fate <;> simp [actsEnd] at a1 ⊢
    subst hfate
    have hfr := a4 hr
    rw [if_pos hr]
    have hfc : ∀ fm, fatalCall E r.1.front fm = (r.1.front, [.fatal w fm], .blocked) := by
      intro fm
      unfold fatalCall pushFatalMessageToLogger
      rw [hfr, show (hcPrep s t).front.handler = .default from hd, show (hcPrep s t).front.inst = some w from hi]
    rw [hfc]
    refine ⟨rfl, ?_, ?_, rfl⟩
    · show saves (r.2.1 ++ [_]) = _
      rw [saves, List.filterMap_append]
      change saves r.2.1 ++ [] = _
      rw [a2, List.append_nil]
      rfl
    · show handedTexts (r.2.1 ++ [_]) = _
      rw [handedTexts_append, a3]
      show [(w, (fatalText m t (s.front.firstTrace.getD t) r.1.front.counter).message, n)] = _
      rw [fatalEntry_eq, hfr, ht, show (hcPrep s t).front.counter = 1 from by show s.front.counter + 1 = 1; rw [hc]]
      rfl
  · rw [if_neg hr]
    refine ⟨?_, a2, ?_, rfl⟩
    · show r.2.2 = _
      rw [a1] at hr ⊢
      cases fate <;> simp [actsEnd, outerEnd] at hr ⊢
    · show handedTexts r.2.1 = _
      rw [a3]
      rw [a1] at hr
      cases fate <;> simp [actsEnd, actsReport, outerReport, Outer.trace] at hr ⊢

/-- **C121** (exact). A program in normal use has a pre-fatal hook that sets no hook; a fatal statement is executed, or a signal that g3log handles
arrives. Then the end of the thread, what the hook has logged and the fatal message handed over are those read off the steps of the hook, where
the signal of the event is blocked and further signals are not reported if the event is a signal. -/
theorem C121_exact (E : Env) (d w : Nat) (s : HCState) (h : HHook) (o : Outer) (sync : Bool) (hs : calmState w s) (hh : s.hook = some h)
    (hf : flat h.acts) (ho : ∀ n ∈ o.mask, n ∈ s.handled) :
    let r := hcFatalAct (hcEvent E (d + 2)) s (o.act sync)
    let fate := hookFate s.handled o.mask o.fresh h.acts
    r.2.2 = outerEnd (!o.fresh) fate ∧
    saves r.2.1 = (hookLogs o.mask h.acts).map (fun m => (w, m)) ∧
    handedTexts r.2.1 = outerReport w o fate ∧
    r.2.1.head? = some (.hook h.id) := by
  obtain ⟨hi, hd, hc, ht, he, hm⟩ := hs
  cases o with
  | stmt m t n =>
    have := event_fate E d w s h m t n hi hd hc ht hh hf
    rw [he, hm] at this
    exact this
  | signal n m t =>
    have hn : n ∈ s.handled := ho n (by simp [Outer.mask])
    have ev := event_fate E d w { s with mask := n :: s.mask, entered := s.entered + 1 } h m t n hi hd hc ht hh hf
    change _ = outerEnd false (hookFate s.handled (n :: s.mask) (decide (s.entered + 1 = 0)) h.acts) ∧
      _ = (hookLogs (n :: s.mask) h.acts).map (fun m => (w, m)) ∧
      _ = outerReport w (.stmt m t n) (hookFate s.handled (n :: s.mask) (decide (s.entered + 1 = 0)) h.acts) ∧ _ at ev
    rw [show decide (s.entered + 1 = 0) = false from by simp, hm] at ev
    have hsig : (hcSignal (hcEvent E (d + 2)) s n m t).2.2 = outerEnd true (hookFate s.handled [n] false h.acts) ∧
        (hcSignal (hcEvent E (d + 2)) s n m t).2.1 = (hcEvent E (d + 2) { s with mask := [n], entered := s.entered + 1 } m t n).2.1 := by
      unfold hcSignal
      dsimp only
      rw [if_neg (show ¬ s.entered ≠ 0 from fun hx => hx he), hm]
      generalize hookFate s.handled [n] false h.acts = fate at *
      rw [ev.1]
      cases fate <;> simp [outerEnd, ev.1]
    have hne : (hcSignal (hcEvent E (d + 2)) s n m t).2.2 ≠ .ok := by
      rw [hsig.1]
      generalize hookFate s.handled [n] false h.acts = fate
      cases fate <;> simp [outerEnd]
    have hact : hcFatalAct (hcEvent E (d + 2)) s ((Outer.signal n m t).act sync) = hcSignal (hcEvent E (d + 2)) s n m t := by
      cases sync
      · simp [Outer.act, hcFatalAct, hm, hn]
      · simp only [Outer.act, hcFatalAct, if_true]
        rw [if_neg (by simp [hm, hn]), if_neg hne]
    dsimp only
    rw [hact, hsig.1, hsig.2]
    refine ⟨rfl, ev.2.1, ?_, ev.2.2.2⟩
    rw [ev.2.2.1]
    show outerReport w (.stmt m t n) (hookFate s.handled [n] false h.acts) = outerReport w (.signal n m t) (hookFate s.handled [n] false h.acts)
    generalize hookFate s.handled [n] false h.acts = fate
    cases fate <;> rfl

/-- Steps that cause only signals in `handled`, and no exceptions. -/
def tame (handled : List Int) : HAct → Prop
  | .crash n _ _ => n ∈ handled
  | .raise n _ _ => n ∈ handled
  | .abort _ _ => SIGABRT ∈ handled
  | .throws => False
  | _ => True

/-- **C121** (statements, partial). The promise holds for fatal statements: whatever crashes in the hook of LOG(FATAL) or CHECK, as long as g3log
handles it, exactly one fatal message reaches the worker that then ends the process. It is that of the statement if the hook returns. Otherwise it is
that of the step of the hook that crashed, marked as recursive with the stack dump of the statement.
Missing: the same for fatal signals, for which it is false (`C121_negation`). -/
theorem C121_statement_partial (E : Env) (d w : Nat) (s : HCState) (h : HHook) (m : LogMessage) (t : Str) (n : Int) (hs : calmState w s)
    (hh : s.hook = some h) (hf : flat h.acts) (ht : ∀ a ∈ h.acts, tame s.handled a) :
    let r := hcFatalAct (hcEvent E (d + 2)) s (.stmt m t n)
    r.2.2 = .blocked ∧
    (handedTexts r.2.1 = [(w, fatalEntry m t t false, n)] ∧ (∀ a ∈ h.acts, ∃ m', a = .log m') ∨
     ∃ pre a post m' t' n', h.acts = pre ++ a :: post ∧ (∀ b ∈ pre, ∃ m', b = .log m') ∧
       (a = .stmt m' t' n' ∨ a = .crash n' m' t' ∨ a = .raise n' m' t' ∨ a = .abort m' t' ∧ n' = SIGABRT) ∧
       handedTexts r.2.1 = [(w, fatalEntry m' t' t true, n')]) := by
  have ex := C121_exact E d w s h (.stmt m t n) true hs hh hf (by simp [Outer.mask])
  dsimp only [Outer.act, Outer.mask, Outer.fresh] at ex ⊢
  have key : ∀ as : List HAct, flat as → (∀ a ∈ as, tame s.handled a) →
      hookFate s.handled [] true as = .returns ∧ (∀ a ∈ as, ∃ m', a = .log m') ∨
      ∃ pre a post m' t' n', as = pre ++ a :: post ∧ (∀ b ∈ pre, ∃ m', b = .log m') ∧
       (a = .stmt m' t' n' ∨ a = .crash n' m' t' ∨ a = .raise n' m' t' ∨ a = .abort m' t' ∧ n' = SIGABRT) ∧
       hookFate s.handled [] true as = .reports m' t' n' := by
    intro as
    induction as with
    | nil => exact fun _ _ => .inl ⟨rfl, by simp⟩
    | cons a r ih =>
      intro hf ht
      have ha := ht a (List.mem_cons_self ..)
      cases a with
      | log m0 =>
        rcases ih hf (fun b hb => ht b (List.mem_cons_of_mem _ hb)) with ⟨h1, h2⟩ | ⟨pre, a, post, m', t', n', h1, h2, h3, h4⟩
        · refine .inl ⟨h1, fun b hb => ?_⟩
          rcases List.mem_cons.1 hb with rfl | hb
          · exact ⟨m0, rfl⟩
          · exact h2 b hb
        · refine .inr ⟨.log m0 :: pre, a, post, m', t', n', by rw [h1]; rfl, fun b hb => ?_, h3, h4⟩
          rcases List.mem_cons.1 hb with rfl | hb
          · exact ⟨m0, rfl⟩
          · exact h2 b hb
      | setHook id acts => exact absurd hf (by simp [flat])
      | throws => exact absurd ha (by simp [tame])
      | stmt m' t' n' => exact .inr ⟨[], _, r, m', t', n', rfl, by simp, .inl rfl, rfl⟩
      | crash n' m' t' =>
        have : n' ∈ s.handled := ha
        exact .inr ⟨[], _, r, m', t', n', rfl, by simp, .inr (.inl rfl), by simp [hookFate, signalFate, this]⟩
      | raise n' m' t' =>
        have : n' ∈ s.handled := ha
        exact .inr ⟨[], _, r, m', t', n', rfl, by simp, .inr (.inr (.inl rfl)), by simp [hookFate, signalFate, this]⟩
      | abort m' t' =>
        have : SIGABRT ∈ s.handled := ha
        exact .inr ⟨[], _, r, m', t', SIGABRT, rfl, by simp, .inr (.inr (.inr ⟨rfl, rfl⟩)), by simp [hookFate, signalFate, this]⟩
  rcases key h.acts hf ht with ⟨h1, h2⟩ | ⟨pre, a, post, m', t', n', h1, h2, h3, h4⟩
  · rw [h1] at ex
    exact ⟨ex.1, .inl ⟨ex.2.2.1, h2⟩⟩
  · rw [h4] at ex
    exact ⟨ex.1, .inr ⟨pre, a, post, m', t', n', h1, h2, h3, ex.2.2.1⟩⟩

/-- Steps that come back when the fatal event is the signal `n`: LOG, and raising `n` itself, which is blocked. -/
def comesBack (n : Int) (a : HAct) : Prop := (∃ m, a = .log m) ∨ ∃ m t, a = .raise n m t

/-- **C121** (signals). A fatal signal is reported by a program with a hook if and only if the first step of the hook that does not come back, if there
is one, is a fatal statement: a hook that crashes by a signal, aborts or throws makes the report, and with it the flush of the log, disappear. -/
theorem C121_signal_iff (E : Env) (d w : Nat) (s : HCState) (h : HHook) (n : Int) (m : LogMessage) (t : Str) (sync : Bool) (hs : calmState w s)
    (hh : s.hook = some h) (hf : flat h.acts) (hn : n ∈ s.handled) :
    handedTexts (hcFatalAct (hcEvent E (d + 2)) s ((Outer.signal n m t).act sync)).2.1 ≠ [] ↔
      ∃ pre post, h.acts = pre ++ post ∧ (∀ a ∈ pre, comesBack n a) ∧ (post = [] ∨ ∃ m' t' n' r, post = .stmt m' t' n' :: r) := by
  have ex := C121_exact E d w s h (.signal n m t) sync hs hh hf (by simp [Outer.mask, hn])
  rw [ex.2.2.1]
  dsimp only [Outer.mask, Outer.fresh]
  generalize h.acts = as at hf ⊢
  clear ex hh
  have lift : ∀ (a : HAct) (r : List HAct), comesBack n a →
      ((∃ pre post, r = pre ++ post ∧ (∀ a ∈ pre, comesBack n a) ∧ (post = [] ∨ ∃ m' t' n' r, post = .stmt m' t' n' :: r)) ↔
       ∃ pre post, a :: r = pre ++ post ∧ (∀ a ∈ pre, comesBack n a) ∧ (post = [] ∨ ∃ m' t' n' r, post = HAct.stmt m' t' n' :: r)) := by
    intro a r ha
    constructor
    · rintro ⟨pre, post, rfl, h2, h3⟩
      refine ⟨a :: pre, post, rfl, fun b hb => ?_, h3⟩
      rcases List.mem_cons.1 hb with rfl | hb
      · exact ha
      · exact h2 b hb
    · rintro ⟨pre, post, h1, h2, h3⟩
      cases pre with
      | nil =>
        rcases h3 with rfl | ⟨m', t', n', r', rfl⟩
        · cases h1
        · simp only [List.nil_append, List.cons.injEq] at h1
          rcases ha with ⟨_, e⟩ | ⟨_, _, e⟩ <;> rw [e] at h1 <;> cases h1.1
      | cons b pre =>
        simp only [List.cons_append, List.cons.injEq] at h1
        exact ⟨pre, post, h1.2, fun c hc => h2 c (List.mem_cons_of_mem _ hc), h3⟩
  have lost : ∀ (a : HAct) (r : List HAct), ¬ comesBack n a → (∀ m' t' n', a ≠ .stmt m' t' n') →
      ¬ ∃ pre post, a :: r = pre ++ post ∧ (∀ a ∈ pre, comesBack n a) ∧ (post = [] ∨ ∃ m' t' n' r, post = HAct.stmt m' t' n' :: r) := by
    rintro a r ha hb ⟨pre, post, h1, h2, h3⟩
    cases pre with
    | nil =>
      rcases h3 with rfl | ⟨m', t', n', r', rfl⟩
      · cases h1
      · simp only [List.nil_append, List.cons.injEq] at h1
        exact hb m' t' n' h1.1
    | cons b pre =>
      simp only [List.cons_append, List.cons.injEq] at h1
      exact ha (h1.1 ▸ h2 b (List.mem_cons_self ..))
  have sf : ∀ n' m' t', outerReport w (.signal n m t) (signalFate s.handled false n' m' t') = [] := by
    intro n' m' t'
    unfold signalFate
    split
    · rfl
    · simp [outerReport]
  induction as with
  | nil => exact ⟨fun _ => ⟨[], [], rfl, by simp, .inl rfl⟩, fun _ => by simp [hookFate, outerReport]⟩
  | cons a r ih =>
    cases a with
    | log m0 => exact (ih hf).trans (lift _ r (.inl ⟨m0, rfl⟩))
    | setHook id acts => exact absurd hf (by simp [flat])
    | throws => exact iff_of_false (by simp [hookFate, outerReport]) (lost _ r (by simp [comesBack]) (by simp))
    | stmt m' t' n' => exact iff_of_true (by simp [hookFate, outerReport]) ⟨[], _, rfl, by simp, .inr ⟨m', t', n', r, rfl⟩⟩
    | crash n' m' t' =>
      refine iff_of_false ?_ (lost _ r (by simp [comesBack]) (by simp))
      by_cases h1 : n' ∈ [n]
      · simp only [hookFate, if_pos h1]; simp [outerReport]
      · simp only [hookFate, if_neg h1, sf]; simp
    | raise n' m' t' =>
      by_cases h1 : n' ∈ [n]
      · have e : n' = n := by simpa using h1
        subst e
        simp only [hookFate, if_pos h1]
        exact (ih hf).trans (lift _ r (.inr ⟨m', t', rfl⟩))
      · refine iff_of_false ?_ (lost _ r ?_ (by simp))
        · simp only [hookFate, if_neg h1, sf]; simp
        · have : n' ≠ n := by simpa using h1
          simp [comesBack, this]
    | abort m' t' =>
      refine iff_of_false ?_ (lost _ r (by simp [comesBack]) (by simp))
      simp only [hookFate, sf]; simp

/-- **C121** (negation). For every fatal signal that g3log handles there is a hook with which it is not reported at all and the process is ended at once by
the kernel: one that crashes by the same signal. And one with which nothing is reported and the thread sleeps for ever: one that crashes by
another signal that g3log handles, or one that calls `abort`. -/
theorem C121_negation (E : Env) (d w : Nat) (s : HCState) (id : Nat) (n n' : Int) (m m' : LogMessage) (t t' : Str) (post : List HAct) (sync : Bool)
    (hs : calmState w s) (hf : flat post) (hn : n ∈ s.handled) (hn' : n' ∈ s.handled) (ha : SIGABRT ∈ s.handled) (hne : n' ≠ n) :
    let run := fun hook => hcFatalAct (hcEvent E (d + 2)) { s with hook := some ⟨id, hook⟩ } ((Outer.signal n m t).act sync)
    ((run (.crash n m' t' :: post)).2.2 = .killed n ∧ handedTexts (run (.crash n m' t' :: post)).2.1 = []) ∧
    ((run (.crash n' m' t' :: post)).2.2 = .sleeps ∧ handedTexts (run (.crash n' m' t' :: post)).2.1 = []) ∧
    ((run (.abort m' t' :: post)).2.2 = .sleeps ∧ handedTexts (run (.abort m' t' :: post)).2.1 = []) := by
  have ex := fun (hook : List HAct) (hk : flat hook) => C121_exact E d w { s with hook := some ⟨id, hook⟩ } ⟨id, hook⟩ (.signal n m t) sync hs rfl hk
    (by simp [Outer.mask, hn])
  have h1 := ex (.crash n m' t' :: post) hf
  have h2 := ex (.crash n' m' t' :: post) hf
  have h3 := ex (.abort m' t' :: post) hf
  have e1 : hookFate s.handled [n] false (.crash n m' t' :: post) = .kills n := by simp [hookFate]
  have e2 : hookFate s.handled [n] false (.crash n' m' t' :: post) = .hangs := by simp [hookFate, signalFate, hn', hne]
  have e3 : hookFate s.handled [n] false (.abort m' t' :: post) = .hangs := by simp [hookFate, signalFate, ha]
  dsimp only [Outer.mask, Outer.fresh] at h1 h2 h3
  rw [e1] at h1
  rw [e2] at h2
  rw [e3] at h3
  exact ⟨⟨h1.1, h1.2.2.1⟩, ⟨h2.1, h2.2.2.1⟩, ⟨h3.1, h3.2.2.1⟩⟩

/-- **C121** (documented hook). The hook that g3log.hpp:78 gives as an example for Linux raises SIGTRAP, which g3log does not handle: without a debugger
every fatal event, statement or signal, ends the process at once by SIGTRAP. The fatal message is never handed over. The same holds for every other signal
that g3log does not handle and whose default is to end the process. -/
theorem C121_documented_hook (E : Env) (d w : Nat) (s : HCState) (id : Nat) (trap : Int) (m' : LogMessage) (t' : Str) (o : Outer) (sync : Bool)
    (hs : calmState w s) (hh : s.hook = some ⟨id, [.raise trap m' t']⟩) (ho : ∀ n ∈ o.mask, n ∈ s.handled) (ht : trap ∉ s.handled) :
    (hcFatalAct (hcEvent E (d + 2)) s (o.act sync)).2.2 = .killed trap ∧
    handedTexts (hcFatalAct (hcEvent E (d + 2)) s (o.act sync)).2.1 = [] ∧ saves (hcFatalAct (hcEvent E (d + 2)) s (o.act sync)).2.1 = [] := by
  have ex := C121_exact E d w s _ o sync hs hh trivial ho
  have hm : trap ∉ o.mask := fun hx => ht (ho trap hx)
  have e : hookFate s.handled o.mask o.fresh [.raise trap m' t'] = .kills trap := by simp [hookFate, signalFate, hm, ht]
  have e2 : hookLogs o.mask [.raise trap m' t'] = [] := by simp [hookLogs, hm]
  dsimp only at ex
  rw [e, e2] at ex
  exact ⟨ex.1, ex.2.2.1, ex.2.1⟩

/-- Once a fatal signal has been handled, the count stays above zero, whatever the hooks do. -/
theorem acts_entered (ev : HCState → LogMessage → Str → Int → HCR) (hev : ∀ s m t n, s.entered ≤ (ev s m t n).1.entered) (as : List HAct) :
    ∀ s : HCState, s.entered ≤ (hcActs ev s as).1.entered := by
  have hsig : ∀ (s : HCState) (n : Int) (m : LogMessage) (t : Str), s.entered < (hcSignal ev s n m t).1.entered := by
    intro s n m t
    have h1 := hev { s with mask := n :: s.mask, entered := s.entered + 1 } m t n
    change s.entered + 1 ≤ _ at h1
    unfold hcSignal
    dsimp only
    split
    · show s.entered < s.entered + 1; omega
    · split
      · exact h1
      · split
        · split
          · show s.entered < _ + 1; omega
          · exact h1
        · exact h1
  have hact : ∀ (s : HCState) (a : HAct), s.entered ≤ (hcFatalAct ev s a).1.entered := by
    intro s a
    cases a with
    | stmt m t n => exact hev s m t n
    | crash n m t =>
      have := hsig s n m t
      unfold hcFatalAct
      dsimp only
      split
      · exact Nat.le_refl _
      · split
        · show s.entered ≤ _ + 1; omega
        · omega
    | raise n m t =>
      have := hsig s n m t
      unfold hcFatalAct
      dsimp only
      split
      · exact Nat.le_refl _
      · split
        · exact Nat.le_refl _
        · omega
    | abort m t =>
      have := hsig s SIGABRT m t
      unfold hcFatalAct
      dsimp only
      split
      · exact Nat.le_refl _
      · split
        · show s.entered ≤ (hcSignal ev s SIGABRT m t).1.entered; omega
        · omega
    | log _ => exact Nat.le_refl _
    | throws => exact Nat.le_refl _
    | setHook _ _ => exact Nat.le_refl _
  induction as with
  | nil => exact fun s => Nat.le_refl _
  | cons a r ih =>
    intro s
    have gen : hcActs ev s (a :: r) = (let x := hcFatalAct ev s a
        if x.2.2 = .ok then let r' := hcActs ev x.1 r; ((r'.1, x.2.1 ++ r'.2.1, r'.2.2) : HCR) else x) →
        s.entered ≤ (hcActs ev s (a :: r)).1.entered := by
      intro e
      rw [e]
      dsimp only
      split
      · exact Nat.le_trans (hact s a) (ih _)
      · exact hact s a
    cases a with
    | log m => exact ih { s with front := (pushMessageToLogger s.front m).1 }
    | setHook id acts => exact ih { s with hook := some ⟨id, acts⟩ }
    | stmt _ _ _ => exact gen rfl
    | crash _ _ _ => exact gen rfl
    | raise _ _ _ => exact gen rfl
    | abort _ _ => exact gen rfl
    | throws => exact gen rfl

theorem event_entered (E : Env) (d : Nat) : ∀ (s : HCState) (m : LogMessage) (t : Str) (n : Int), s.entered ≤ (hcEvent E d s m t n).1.entered := by
  induction d with
  | zero => exact fun s m t n => Nat.le_refl _
  | succ d ih =>
    intro s m t n
    rw [hcEvent_eq]
    split
    · exact Nat.le_refl _
    · rename_i h _
      have := acts_entered (hcEvent E d) ih h.acts (hcPrep s t)
      change s.entered ≤ _ at this
      dsimp only
      split <;> exact this

/-- The set of handled signals stays as it is. -/
theorem acts_handled (ev : HCState → LogMessage → Str → Int → HCR) (hev : ∀ s m t n, (ev s m t n).1.handled = s.handled) (as : List HAct) :
    ∀ s : HCState, (hcActs ev s as).1.handled = s.handled ∧ ∀ a, (hcFatalAct ev s a).1.handled = s.handled := by
  have hsig : ∀ (s : HCState) (n : Int) (m : LogMessage) (t : Str), (hcSignal ev s n m t).1.handled = s.handled := by
    intro s n m t
    have h1 := hev { s with mask := n :: s.mask, entered := s.entered + 1 } m t n
    unfold hcSignal
    dsimp only
    split
    · rfl
    · split
      · exact h1
      · split
        · split <;> exact h1
        · exact h1
  have hact : ∀ (s : HCState) (a : HAct), (hcFatalAct ev s a).1.handled = s.handled := by
    intro s a
    cases a with
    | stmt m t n => exact hev s m t n
    | crash n m t =>
      unfold hcFatalAct
      dsimp only
      split
      · rfl
      · split <;> exact hsig s n m t
    | raise n m t =>
      unfold hcFatalAct
      dsimp only
      split
      · rfl
      · split
        · rfl
        · exact hsig s n m t
    | abort m t =>
      unfold hcFatalAct
      dsimp only
      split
      · rfl
      · split <;> exact hsig s SIGABRT m t
    | log _ => rfl
    | throws => rfl
    | setHook _ _ => rfl
  suffices h : ∀ s : HCState, (hcActs ev s as).1.handled = s.handled from fun s => ⟨h s, hact s⟩
  induction as with
  | nil => exact fun s => rfl
  | cons a r ih =>
    intro s
    have gen : hcActs ev s (a :: r) = (let x := hcFatalAct ev s a
        if x.2.2 = .ok then let r' := hcActs ev x.1 r; ((r'.1, x.2.1 ++ r'.2.1, r'.2.2) : HCR) else x) →
        (hcActs ev s (a :: r)).1.handled = s.handled := by
      intro e
      rw [e]
      dsimp only
      split
      · exact (ih _).trans (hact s a)
      · exact hact s a
    cases a with
    | log m => exact ih { s with front := (pushMessageToLogger s.front m).1 }
    | setHook id acts => exact ih { s with hook := some ⟨id, acts⟩ }
    | stmt _ _ _ => exact gen rfl
    | crash _ _ _ => exact gen rfl
    | raise _ _ _ => exact gen rfl
    | abort _ _ => exact gen rfl
    | throws => exact gen rfl

theorem event_handled (E : Env) (d : Nat) : ∀ (s : HCState) (m : LogMessage) (t : Str) (n : Int), (hcEvent E d s m t n).1.handled = s.handled := by
  induction d with
  | zero => exact fun s m t n => rfl
  | succ d ih =>
    intro s m t n
    rw [hcEvent_eq]
    split
    · rfl
    · rename_i h _
      have := (acts_handled (hcEvent E d) ih h.acts (hcPrep s t)).1
      dsimp only
      split <;> exact this

/-- **C121** (deaf). After a fatal signal has been handled, no further signal that g3log handles is ever reported, on any thread, whatever hook and exit
handler are in use and whatever the outcome of the first was, as long as the process still exists: the thread it reaches sleeps for ever, without
any effect. The signal is not even able to end the process. -/
theorem C121_deaf (E : Env) (d d' : Nat) (s : HCState) (n n' : Int) (m m' : LogMessage) (t t' : Str) (mask pending : List Int) (h0 : s.entered = 0)
    (hn : n ∈ s.handled) (hm : n ∉ s.mask) (hn' : n' ∈ s.handled)
    (hm' : n' ∉ mask) :
    let s' := { (hcFatalAct (hcEvent E d) s (.raise n m t)).1 with mask := mask, pending := pending }
    (hcFatalAct (hcEvent E d') s' (.raise n' m' t')).2 = ([], .sleeps) ∧ (hcFatalAct (hcEvent E d') s' (.crash n' m' t')).2 = ([], .sleeps) := by
  have he : (hcFatalAct (hcEvent E d) s (.raise n m t)).1.entered ≠ 0 := by
    have e : hcFatalAct (hcEvent E d) s (.raise n m t) = hcSignal (hcEvent E d) s n m t := by simp [hcFatalAct, hm, hn]
    rw [e]
    have h1 := event_entered E d { s with mask := n :: s.mask, entered := s.entered + 1 } m t n
    change s.entered + 1 ≤ _ at h1
    unfold hcSignal
    dsimp only
    rw [if_neg (fun hx => hx h0)]
    split
    · show (hcEvent E d { s with mask := n :: s.mask, entered := s.entered + 1 } m t n).1.entered ≠ 0; omega
    · split
      · split
        · show _ + 1 ≠ 0; omega
        · show (hcEvent E d { s with mask := n :: s.mask, entered := s.entered + 1 } m t n).1.entered ≠ 0; omega
      · omega
  have hk := (acts_handled (hcEvent E d) (event_handled E d) [] s).2 (.raise n m t)
  generalize hcFatalAct (hcEvent E d) s (.raise n m t) = r at *
  dsimp only
  have late := fun (st : HCState) (hst : st.entered ≠ 0) => late_signal (hcEvent E d') st n' m' t' hst
  have e1 : n' ∈ { r.1 with mask := mask, pending := pending }.handled := by show n' ∈ r.1.handled; rw [hk]; exact hn'
  constructor
  · unfold hcFatalAct
    dsimp only
    rw [if_neg hm', if_neg (fun hx => hx e1), late { r.1 with mask := mask, pending := pending } he]
  · unfold hcFatalAct
    dsimp only
    rw [if_neg (fun hx => hx.elim hm' (fun h2 => h2 e1)), late { r.1 with mask := mask, pending := pending } he]
    rfl

/-- The signals raised by a hook, last one first. -/
def raisedLast : List HAct → List Int
  | [] => []
  | .raise n _ _ :: r => raisedLast r ++ [n]
  | _ :: r => raisedLast r

/-- A hook that comes back: its messages are saved, the signals it raises stay pending. -/
theorem back_acts (ev : HCState → LogMessage → Str → Int → HCR) (w : Nat) (n : Int) (as : List HAct) (ha : ∀ a ∈ as, comesBack n a) :
    ∀ s : HCState, s.front.inst = some w → n ∈ s.mask →
      hcActs ev s as = ({ s with pending := raisedLast as ++ s.pending }, (hookLogs s.mask as).map (fun m => .save w m), .ok) := by
  induction as with
  | nil => exact fun s _ _ => rfl
  | cons a r ih =>
    intro s hi hm
    have ih' := ih (fun b hb => ha b (List.mem_cons_of_mem _ hb))
    rcases ha a (List.mem_cons_self ..) with ⟨m, rfl⟩ | ⟨m, t, rfl⟩
    · have hp : pushMessageToLogger s.front m = (s.front, [.save w m], .ok) := by unfold pushMessageToLogger; rw [hi]
      show (let r0 := pushMessageToLogger s.front m
            let r' := hcActs ev { s with front := r0.1 } r
            ((r'.1, r0.2.1 ++ r'.2.1, r'.2.2) : HCR)) = _
      rw [hp]
      show (let r' := hcActs ev s r; ((r'.1, [.save w m] ++ r'.2.1, r'.2.2) : HCR)) = _
      rw [ih' s hi hm]
      rfl
    · show (let r0 := hcFatalAct ev s (.raise n m t)
            if r0.2.2 = .ok then
              let r' := hcActs ev r0.1 r
              ((r'.1, r0.2.1 ++ r'.2.1, r'.2.2) : HCR)
            else r0) = _
      simp only [hcFatalAct, if_pos hm, if_true, List.nil_append]
      rw [ih' { s with pending := n :: s.pending } hi hm]
      simp [raisedLast, hookLogs, hm]

/-- How a fatal signal ends when the user's exit handler is called: `b` says whether it returns, `again` whether the hook has raised the signal. -/
def userEnd (b again : Bool) : HAct → HCStat
  | .raise _ _ _ => if !b then .undefined else if again then .sleeps else .ok
  | .abort _ _ => if !b then .undefined else if again then .sleeps else .killed SIGABRT
  | _ => if !b then .undefined else .sleeps

/-- **C121** (user's exit handler). With an exit handler of the user's own, a fatal signal calls the hook and then the handler with the message, once. If
the handler throws, the exception leaves a signal handler: undefined. If it returns, a raised signal lets the thread go on as before; an instruction that
crashes is executed again and leaves the thread asleep for ever; `abort` ends the process. If the hook has raised the signal again, the thread sleeps for ever. -/
theorem C121_user_handler (E : Env) (d w : Nat) (s : HCState) (h : HHook) (b : Bool) (n : Int) (m : LogMessage) (t : Str) (a : HAct)
    (again : Bool) (hi : s.front.inst = some w) (hd : s.front.handler = .custom b) (hc : s.front.counter = 0) (ht : s.front.firstTrace = none) (he : s.entered = 0)
    (hm : s.mask = []) (hp : s.pending = []) (hh : s.hook = some h) (hb : ∀ x ∈ h.acts, comesBack n x) (hn : n ∈ s.handled)
    (hag : again = true ↔ ∃ m' t', .raise n m' t' ∈ h.acts) (ha : a = .raise n m t ∨ a = .crash n m t ∨ a = .abort m t ∧ n = SIGABRT) :
    let r := hcFatalAct (hcEvent E (d + 1)) s a
    r.2.2 = userEnd b again a ∧
    (∃ fm : FatalMessage, r.2.1 = .hook h.id :: (hookLogs [n] h.acts).map (fun m => .save w m) ++ [.handler fm] ∧
      fm.base.message = fatalEntry m t t false ∧ fm.signal = n) ∧
    (r.2.2 = .ok → r.1.mask = [] ∧ r.1.pending = [] ∧ r.1.entered = 1 ∧ r.1.hook = some HHook.nothing) := by
  have hmem : ∀ as : List HAct, (∀ x ∈ as, comesBack n x) → (n ∈ raisedLast as ↔ ∃ m' t', .raise n m' t' ∈ as) ∧
      ((¬ ∃ m' t', .raise n m' t' ∈ as) → raisedLast as = []) := by
    intro as
    induction as with
    | nil => simp [raisedLast]
    | cons x r ih =>
      intro hx
      have ih' := ih (fun y hy => hx y (List.mem_cons_of_mem _ hy))
      rcases hx x (List.mem_cons_self ..) with ⟨m', rfl⟩ | ⟨m', t', rfl⟩
      · simpa [raisedLast] using ih'
      · refine ⟨iff_of_true (by simp [raisedLast]) ⟨m', t', List.mem_cons_self ..⟩, fun hx => absurd ⟨m', t', List.mem_cons_self ..⟩ hx⟩
  obtain ⟨hr1, hr2⟩ := hmem h.acts hb
  have hev : ∃ fm : FatalMessage, fm.base.message = fatalEntry m t t false ∧ fm.signal = n ∧
      hcEvent E (d + 1) { s with mask := n :: s.mask, entered := s.entered + 1 } m t n =
        ({ hcPrep { s with mask := n :: s.mask, entered := s.entered + 1 } t with pending := raisedLast h.acts },
          .hook h.id :: (hookLogs [n] h.acts).map (fun m => .save w m) ++ [.handler fm], if b then .ok else .thrown) := by
    refine ⟨FatalMessage.new (fatalText m t t 1) n, ?_, rfl, ?_⟩
    · show (fatalText m t t 1).message = _
      rw [fatalEntry_eq]; rfl
    · have hh1 : ({ s with mask := n :: s.mask, entered := s.entered + 1 } : HCState).hook = some h := hh
      have ht1 : ({ s with mask := n :: s.mask, entered := s.entered + 1 } : HCState).front.firstTrace = none := ht
      rw [hcEvent_eq, hh1, ht1]
      show (let r := hcActs (hcEvent E d) (hcPrep { s with mask := n :: s.mask, entered := s.entered + 1 } t) h.acts
        if r.2.2 = .ok then
          let r' := fatalCall E r.1.front (FatalMessage.new (fatalText m t (none.getD t) r.1.front.counter) n)
          (({ r.1 with front := r'.1 }, .hook h.id :: r.2.1 ++ r'.2.1, r'.2.2.toHC) : HCR)
        else (r.1, .hook h.id :: r.2.1, r.2.2)) = _
      rw [back_acts (hcEvent E d) w n h.acts hb (hcPrep { s with mask := n :: s.mask, entered := s.entered + 1 } t) hi (List.mem_cons_self ..)]
      dsimp only
      rw [if_pos rfl]
      have e1 : (hcPrep { s with mask := n :: s.mask, entered := s.entered + 1 } t).front.counter = 1 := by show s.front.counter + 1 = 1; rw [hc]
      have e2 : ∀ fm, fatalCall E (hcPrep { s with mask := n :: s.mask, entered := s.entered + 1 } t).front fm =
          ((hcPrep { s with mask := n :: s.mask, entered := s.entered + 1 } t).front, [.handler fm], if b then .ok else .thrown) := by
        intro fm
        unfold fatalCall
        rw [show (hcPrep { s with mask := n :: s.mask, entered := s.entered + 1 } t).front.handler = .custom b from hd]
      rw [e1, e2]
      have e3 : (hcPrep { s with mask := n :: s.mask, entered := s.entered + 1 } t).pending = [] := hp
      have e4 : (hcPrep { s with mask := n :: s.mask, entered := s.entered + 1 } t).mask = [n] := by show n :: s.mask = _; rw [hm]
      rw [e3, e4, List.append_nil]
      cases b <;> simp only [hcPrep, hm] <;> rfl
  obtain ⟨fm, f1, f2, hev⟩ := hev
  have hsig : hcSignal (hcEvent E (d + 1)) s n m t = (let x := hcEvent E (d + 1) { s with mask := n :: s.mask, entered := s.entered + 1 } m t n
      if !b then (x.1, x.2.1, .undefined) else if n ∈ raisedLast h.acts then ({ x.1 with entered := x.1.entered + 1 }, x.2.1, .sleeps)
      else ({ x.1 with mask := s.mask }, x.2.1, .ok)) := by
    unfold hcSignal
    dsimp only
    rw [if_neg (fun hx => hx he), hev]
    cases b <;> simp
  have hent : ({ hcPrep { s with mask := n :: s.mask, entered := s.entered + 1 } t with pending := raisedLast h.acts } : HCState).entered = 1 := by
    show s.entered + 1 = 1; rw [he]
  rw [hev] at hsig
  have hnm : n ∉ s.mask := by rw [hm]; simp
  dsimp only
  cases again with
  | true =>
    have hx : n ∈ raisedLast h.acts := hr1.2 (hag.1 rfl)
    rcases ha with rfl | rfl | ⟨rfl, hab⟩
    · simp only [hcFatalAct, if_neg hnm, not_not, hn, not_true_eq_false, if_false]
      rw [hsig]
      cases b <;> simp [userEnd, hx, f1, f2]
    · simp only [hcFatalAct, hnm, hn, not_true_eq_false, or_self, if_false]
      rw [hsig]
      cases b <;> simp [userEnd, hx, f1, f2]
    · subst hab
      simp only [hcFatalAct, hn, not_true_eq_false, if_false]
      rw [hsig]
      cases b <;> simp [userEnd, hx, f1, f2]
  | false =>
    have hnil := hr2 (fun hx => Bool.noConfusion (hag.2 hx))
    rcases ha with rfl | rfl | ⟨rfl, hab⟩
    · simp only [hcFatalAct, if_neg hnm, not_not, hn, not_true_eq_false, if_false]
      rw [hsig]
      cases b <;> simp [userEnd, f1, f2, hnil, hm, hcPrep, he]
    · simp only [hcFatalAct, hnm, hn, not_true_eq_false, or_self, if_false]
      rw [hsig]
      cases b <;> simp [userEnd, f1, f2, hnil]
    · subst hab
      simp only [hcFatalAct, hn, not_true_eq_false, if_false]
      rw [hsig]
      cases b <;> simp [userEnd, f1, f2, hnil]

mutual
/-- The steps of Model/Front as steps here: a fatal event is a statement. -/
def Act.toH : Act → HAct
  | .log m => .log m
  | .fatal m t n => .stmt m t n
  | .setHook id acts => .setHook id (actsToH acts)
  | .throws => .throws
def actsToH : List Act → List HAct
  | [] => []
  | a :: r => Act.toH a :: actsToH r
end

/-- A state of Model/Front, with given counts and signals. -/
def liftFront (s : HCState) (f : Front) : HCState := { s with front := { f with hook := none }, hook := f.hook.map fun h => ⟨h.id, actsToH h.acts⟩ }

/-- A result of Model/Front. -/
def liftR (s : HCState) (r : R) : HCR := (liftFront s r.1, r.2.1, r.2.2.toHC)

theorem toHC_ok (x : Stat) : x.toHC = .ok ↔ x = .ok := by cases x <;> simp [Stat.toHC]

theorem push_lift (f : Front) (m : LogMessage) : pushMessageToLogger { f with hook := none } m =
    ({ (pushMessageToLogger f m).1 with hook := none }, (pushMessageToLogger f m).2) ∧ (pushMessageToLogger f m).1.hook = f.hook := by
  obtain ⟨i, inst, fst, s1, s2, hk, c, ft, hd⟩ := f
  cases inst with
  | some w => exact ⟨rfl, rfl⟩
  | none => cases s1 <;> exact ⟨rfl, rfl⟩

theorem call_lift (E : Env) (f : Front) (m : FatalMessage) : fatalCall E { f with hook := none } m =
    ({ (fatalCall E f m).1 with hook := none }, (fatalCall E f m).2) ∧ (fatalCall E f m).1.hook = f.hook := by
  obtain ⟨i, inst, fst, s1, s2, hk, c, ft, hd⟩ := f
  cases hd with
  | custom b => exact ⟨rfl, rfl⟩
  | default => cases inst <;> exact ⟨rfl, rfl⟩

theorem acts_lift (s : HCState) (ev : HCState → LogMessage → Str → Int → HCR) (ev' : Front → LogMessage → Str → Int → R)
    (hev : ∀ f m t n, ev (liftFront s f) m t n = liftR s (ev' f m t n)) (as : List Act) :
    ∀ f : Front, hcActs ev (liftFront s f) (actsToH as) = liftR s (runActs ev' f as) := by
  induction as with
  | nil => exact fun f => rfl
  | cons a r ih =>
    intro f
    cases a with
    | log m =>
      have hp := push_lift f m
      have e : ({ liftFront s f with front := (pushMessageToLogger (liftFront s f).front m).1 } : HCState) = liftFront s (pushMessageToLogger f m).1 := by
        show ({ liftFront s f with front := (pushMessageToLogger { f with hook := none } m).1 } : HCState) = _
        rw [hp.1]
        unfold liftFront
        rw [hp.2]
      have e2 : (pushMessageToLogger (liftFront s f).front m).2.1 = (pushMessageToLogger f m).2.1 := by
        show (pushMessageToLogger { f with hook := none } m).2.1 = _
        rw [hp.1]
      show (let r0 := pushMessageToLogger (liftFront s f).front m
            let r' := hcActs ev { liftFront s f with front := r0.1 } (actsToH r)
            ((r'.1, r0.2.1 ++ r'.2.1, r'.2.2) : HCR)) = _
      dsimp only
      rw [e, e2, ih]
      rfl
    | setHook id acts => exact ih (setFatalPreLoggingHook f (some ⟨id, acts⟩))
    | throws => rfl
    | fatal m t n =>
      show (let x := ev (liftFront s f) m t n
            if x.2.2 = .ok then let r' := hcActs ev x.1 (actsToH r); ((r'.1, x.2.1 ++ r'.2.1, r'.2.2) : HCR) else x) =
        liftR s (let x := ev' f m t n
            if x.2.2 = .ok then let r' := runActs ev' x.1 r; ((r'.1, x.2.1 ++ r'.2.1, r'.2.2) : R) else x)
      dsimp only
      rw [hev]
      by_cases h : (ev' f m t n).2.2 = .ok
      · rw [if_pos h, if_pos (show (liftR s (ev' f m t n)).2.2 = .ok from (toHC_ok _).2 h)]
        show (let r' := hcActs ev (liftFront s (ev' f m t n).1) (actsToH r); ((r'.1, (ev' f m t n).2.1 ++ r'.2.1, r'.2.2) : HCR)) = _
        rw [ih]
        rfl
      · rw [if_neg h, if_neg (show ¬ (liftR s (ev' f m t n)).2.2 = .ok from fun hx => h ((toHC_ok _).1 hx))]

/-- **C121** (agreement). For hooks whose fatal events are statements, whatever else they do, the signal handler changes nothing: the result is that of
the model of C47 and the others, in which every fatal event is a call of the same function. -/
theorem C121_same (E : Env) (d : Nat) : ∀ (s : HCState) (f : Front) (m : LogMessage) (t : Str) (n : Int),
    hcEvent E d (liftFront s f) m t n = liftR s (saveFatalMessage E d f m t n) := by
  induction d with
  | zero => exact fun s f m t n => rfl
  | succ d ih =>
    intro s f m t n
    rw [hcEvent_eq, saveFatal_eq]
    cases hh : f.hook with
    | none =>
      have e : (liftFront s f).hook = none := by show f.hook.map _ = _; rw [hh]; rfl
      rw [e]
      rfl
    | some h =>
      have e : (liftFront s f).hook = some ⟨h.id, actsToH h.acts⟩ := by show f.hook.map _ = _; rw [hh]; rfl
      rw [e]
      dsimp only
      have e2 : hcPrep (liftFront s f) t = liftFront s (prep f t) := rfl
      rw [e2, acts_lift s (hcEvent E d) (saveFatalMessage E d) (fun f m t n => ih s f m t n) h.acts (prep f t)]
      generalize runActs (saveFatalMessage E d) (prep f t) h.acts = r
      by_cases hr : r.2.2 = .ok
      · rw [if_pos hr, if_pos (show (liftR s r).2.2 = .ok from (toHC_ok _).2 hr)]
        have hc := call_lift E r.1
        show (let r' := fatalCall E { r.1 with hook := none } (FatalMessage.new (fatalText m t (f.firstTrace.getD t) r.1.counter) n)
          (({ liftFront s r.1 with front := r'.1 }, .hook h.id :: r.2.1 ++ r'.2.1, r'.2.2.toHC) : HCR)) = _
        rw [(hc _).1]
        unfold liftR liftFront
        dsimp only
        rw [(hc _).2]
      · rw [if_neg hr, if_neg (show ¬ (liftR s r).2.2 = .ok from fun hx => hr ((toHC_ok _).1 hx))]
        rfl

/-! Examples: the hypotheses are met. -/

/-- The five signals of crashhandler_unix.cpp:42-47. -/
def exHandled : List Int := [6, 8, 4, 11, 15]

def exCalm (hook : List HAct) : HCState :=
  { front := { Front.start with installed := true, inst := some 3 }, hook := some ⟨7, hook⟩, entered := 0, handled := exHandled, mask := [], pending := [] }

def exHookMsg (text : Str) : LogMessage := { LogMessage.new true 0 1 [] 1 [] WARNING.copy with message := text }

example (hook : List HAct) : calmState 3 (exCalm hook) := ⟨rfl, rfl, rfl, rfl, rfl, rfl⟩
example : flat [.log (exHookMsg []), .raise 11 (exHookMsg []) [], .crash 8 (exHookMsg []) []] := trivial
example : ∀ n ∈ (Outer.signal 11 (exHookMsg []) []).mask, n ∈ (exCalm []).handled := by simp [Outer.mask, exCalm, exHandled]
example : tame (exCalm []).handled (.abort (exHookMsg []) []) := by simp [tame, exCalm, exHandled, SIGABRT]
example : (11 : Int) ∈ (exCalm []).handled ∧ (8 : Int) ∈ (exCalm []).handled ∧ SIGABRT ∈ (exCalm []).handled ∧ (8 : Int) ≠ 11 := by
  simp [exCalm, exHandled, SIGABRT]
example : (5 : Int) ∉ (exCalm [.raise 5 (exHookMsg []) []]).handled := by simp [exCalm, exHandled]
example : (true = true ↔ ∃ m' t', HAct.raise 11 m' t' ∈ [HAct.log (exHookMsg []), .raise 11 (exHookMsg []) []]) ∧ ∀ x ∈ [HAct.log (exHookMsg []), .raise 11 (exHookMsg []) []], comesBack 11 x := by
  refine ⟨iff_of_true rfl ⟨exHookMsg [], [], by simp⟩, fun x hx => ?_⟩
  simp only [List.mem_cons, List.not_mem_nil, or_false] at hx
  rcases hx with rfl | rfl
  · exact .inl ⟨_, rfl⟩
  · exact .inr ⟨_, _, rfl⟩
example : comesBack 11 (.raise 11 (exHookMsg []) []) := .inr ⟨_, _, rfl⟩
example : hookFate exHandled [11] false [.log (exHookMsg []), .crash 8 (exHookMsg []) []] = .hangs := by decide
example : hookFate exHandled [] true [.log (exHookMsg []), .crash 8 (exHookMsg []) []] = .reports (exHookMsg []) [] 8 := by rfl

end G3.Props
