import Verif.Spec.StaticOrder
import Mathlib.Tactic.ByContra
/-
C101: LOG in constructors and destructors of static objects.
-/
namespace G3.Props
open G3 G3.Spec

/-- The state of the library agrees with what the calls have done. -/
structure SAgree (s : SState) (σ : Lib) : Prop where
  front : s.front = σ.front
  fresh : s.life .loglevels = .zero → σ.levels = defaultLevels
  levels : s.life .loglevels ≠ .zero → s.reg = σ.levels
  unset : s.life .g3log = .zero → σ.front.hook = none ∧ σ.front.handler = .default

theorem alive_of {s : SState} {u : LibFile} (h : s.life u = .alive) : s.alive u = true := by simp [SState.alive, h]
theorem not_alive_of {s : SState} {u : LibFile} (h : s.life u ≠ .alive) : s.alive u = false := by simp [SState.alive, h]

theorem wasFatal_thousand (l : Level) : wasFatal l = decide (1000 ≤ l.value) := rfl

/-- What a call does, against its specification. -/
def SMeets (s : SState) (out : SOut) (ok : Prop) (r : Lib × List Eff × Stat) : Prop :=
  (¬ ok → out = .ub) ∧
  (ok → ∃ s', out = .fin s' r.2.1 r.2.2 ∧ s'.life = s.life ∧ s'.front = r.1.front ∧ (r.2.2.goesOn = true → SAgree s' r.1))

theorem push_keeps (f : Front) (m : LogMessage) :
    (pushMessageToLogger f m).1.hook = f.hook ∧ (pushMessageToLogger f m).1.handler = f.handler := by
  unfold pushMessageToLogger
  split
  · split <;> exact ⟨rfl, rfl⟩
  · exact ⟨rfl, rfl⟩

theorem capture_meets (c : SEnv) (s : SState) (σ : Lib) (h : SAgree s σ) (m : LogMessage) (t : Str) (n : Int)
    (hw : c.dyn = true → (logLevel m.level σ.levels).1 = true) (reg : Registry)
    (hreg : s.life .loglevels = .alive → reg = if c.dyn then (logLevel m.level σ.levels).2 else σ.levels) :
    SMeets s (sCapture c { s with reg := reg } m t n) (∀ u, Uses c σ (.log m t n) u → s.life u = .alive) (σ.log c m t n) := by
  have hoff : ¬ (c.dyn = true ∧ (logLevel m.level σ.levels).1 = false) := by
    intro ⟨h1, h2⟩; rw [hw h1] at h2; cases h2
  have hlog : σ.log c m t n =
      (⟨if c.dyn then (logLevel m.level σ.levels).2 else σ.levels,
        (fStep c.env c.src c.depth σ.front (if 1000 ≤ m.level.value then .fatal m t n else .log m)).1⟩,
        (fStep c.env c.src c.depth σ.front (if 1000 ≤ m.level.value then .fatal m t n else .log m)).2) := by
    unfold Lib.log; rw [if_neg hoff]
  by_cases hl : s.life .loglevels = .alive
  · have ha : ({ s with reg := reg } : SState).alive .loglevels = true := alive_of (s := { s with reg := reg }) hl
    have hreg' := hreg hl
    have hagree : ∀ f, (s.life .g3log = .zero → f.hook = none ∧ f.handler = .default) →
        SAgree { s with reg := reg, front := f } ⟨if c.dyn then (logLevel m.level σ.levels).2 else σ.levels, f⟩ := by
      intro f hf
      exact ⟨rfl, fun hz => (by simp only at hz; rw [hl] at hz; exact nomatch hz), fun _ => hreg', hf⟩
    by_cases hf : 1000 ≤ m.level.value
    · rw [if_pos hf] at hlog
      have hwf : wasFatal m.level = true := by rw [wasFatal_thousand]; simpa using hf
      by_cases hg : s.life .g3log = .alive
      · have hga : ({ s with reg := reg } : SState).alive .g3log = true := alive_of (s := { s with reg := reg }) hg
        have hout : sCapture c { s with reg := reg } m t n =
            (if (saveFatalMessage c.env c.depth σ.front m t n).2.2.endsFatally then
              (if ({ s with reg := reg } : SState).alive .logmessage && ({ s with reg := reg } : SState).alive .crashhandler then
                ({ s with reg := reg } : SState).onFront (saveFatalMessage c.env c.depth σ.front m t n) else .ub)
             else ({ s with reg := reg } : SState).onFront (saveFatalMessage c.env c.depth σ.front m t n)) := by
          unfold sCapture
          rw [if_pos ha, if_pos hwf, if_pos hga, show ({ s with reg := reg } : SState).front = σ.front from h.front]
        have hst : (σ.log c m t n).2.2 = (saveFatalMessage c.env c.depth σ.front m t n).2.2 := by rw [hlog]; rfl
        have hgood : ∃ s', ({ s with reg := reg } : SState).onFront (saveFatalMessage c.env c.depth σ.front m t n) =
            .fin s' (σ.log c m t n).2.1 (σ.log c m t n).2.2 ∧ s'.life = s.life ∧ s'.front = (σ.log c m t n).1.front ∧
              ((σ.log c m t n).2.2.goesOn = true → SAgree s' (σ.log c m t n).1) := by
          rw [hlog]
          exact ⟨_, rfl, rfl, rfl, fun _ => hagree _ (fun hz => by rw [hg] at hz; cases hz)⟩
        by_cases he : (saveFatalMessage c.env c.depth σ.front m t n).2.2.endsFatally = true
        · have hends : (∃ k, (σ.log c m t n).2.2 = .exitSignal k) ∨ (σ.log c m t n).2.2 = .blocked := by
            rw [hst]
            revert he
            cases (saveFatalMessage c.env c.depth σ.front m t n).2.2 <;> simp [Stat.endsFatally]
          by_cases hb : s.life .logmessage = .alive ∧ s.life .crashhandler = .alive
          · have hba : (({ s with reg := reg } : SState).alive .logmessage && ({ s with reg := reg } : SState).alive .crashhandler) = true := by
              rw [alive_of (s := { s with reg := reg }) hb.1, alive_of (s := { s with reg := reg }) hb.2]; rfl
            rw [hout, if_pos he, if_pos hba]
            refine ⟨fun hno => absurd ?_ hno, fun _ => hgood⟩
            intro u hu
            cases u
            · exact hl
            · exact hg
            · exact hb.1
            · exact hb.2
          · have hba : ¬ (({ s with reg := reg } : SState).alive .logmessage && ({ s with reg := reg } : SState).alive .crashhandler) = true := by
              intro hx
              simp [SState.alive] at hx
              exact hb hx
            rw [hout, if_pos he, if_neg hba]
            refine ⟨fun _ => rfl, fun hok => absurd ⟨hok _ (.dies hw hf (.inl rfl) hends), hok _ (.dies hw hf (.inr rfl) hends)⟩ hb⟩
        · rw [hout, if_neg he]
          refine ⟨fun hno => absurd ?_ hno, fun _ => hgood⟩
          intro u hu
          match u, hu with
          | _, .logs => exact hl
          | _, .hook .. => exact hg
          | _, .dies _ _ _ hx =>
            exfalso
            rw [hst] at hx
            apply he
            rcases hx with ⟨k, hk⟩ | hk <;> rw [hk] <;> rfl
      · have hga : ¬ ({ s with reg := reg } : SState).alive .g3log = true := by
          rw [not_alive_of (s := { s with reg := reg }) hg]; simp
        unfold sCapture
        rw [if_pos ha, if_pos hwf, if_neg hga]
        exact ⟨fun _ => rfl, fun hok => absurd (hok _ (.hook hw hf)) hg⟩
    · rw [if_neg hf] at hlog
      have hwf : ¬ wasFatal m.level = true := by rw [wasFatal_thousand]; simpa using hf
      unfold sCapture
      rw [if_pos ha, if_neg hwf, hlog, show ({ s with reg := reg } : SState).front = σ.front from h.front]
      refine ⟨fun hno => absurd ?_ hno, fun _ => ⟨_, rfl, rfl, rfl, fun _ => hagree _ fun hz => ?_⟩⟩
      · intro u hu
        match u, hu with
        | _, .logs => exact hl
        | _, .hook _ h1 => exact absurd h1 hf
        | _, .dies _ h1 _ _ => exact absurd h1 hf
      · have hk := push_keeps σ.front m
        exact ⟨hk.1.trans (h.unset hz).1, hk.2.trans (h.unset hz).2⟩
  · have ha : ¬ ({ s with reg := reg } : SState).alive .loglevels = true := by
      rw [not_alive_of (s := { s with reg := reg }) hl]; simp
    unfold sCapture
    rw [if_neg ha]
    exact ⟨fun _ => rfl, fun hok => absurd (hok _ .logs) hl⟩

theorem log_meets (c : SEnv) (s : SState) (σ : Lib) (h : SAgree s σ) (m : LogMessage) (t : Str) (n : Int) :
    SMeets s (sLog c s m t n) (∀ u, Uses c σ (.log m t n) u → s.life u = .alive) (σ.log c m t n) := by
  unfold sLog
  by_cases hd : c.dyn = true
  · rw [if_pos hd]
    by_cases hl : s.life .loglevels = .alive
    · have hreg : s.reg = σ.levels := h.levels (by rw [hl]; simp)
      rw [if_pos (alive_of hl)]
      dsimp only
      rw [hreg]
      by_cases hon : (logLevel m.level σ.levels).1 = true
      · rw [if_pos hon]
        exact capture_meets c s σ h m t n (fun _ => hon) _ (fun _ => by rw [if_pos hd])
      · rw [if_neg hon]
        have hoff : c.dyn = true ∧ (logLevel m.level σ.levels).1 = false := ⟨hd, by simpa using hon⟩
        have hlog : σ.log c m t n = (⟨(logLevel m.level σ.levels).2, σ.front⟩, [], .ok) := by
          unfold Lib.log; rw [if_pos hoff, if_pos hd]
        rw [hlog]
        refine ⟨fun hno => absurd ?_ hno, fun _ => ⟨_, rfl, rfl, h.front, fun _ => ⟨h.front, ?_, fun _ => rfl, h.unset⟩⟩⟩
        · intro u hu
          match u, hu with
          | _, .logs => exact hl
          | _, .hook h1 _ => exact absurd (h1 hd) hon
          | _, .dies h1 _ _ _ => exact absurd (h1 hd) hon
        · intro hz; simp only at hz; rw [hl] at hz; cases hz
    · rw [if_neg (by rw [not_alive_of hl]; simp)]
      exact ⟨fun _ => rfl, fun hok => absurd (hok _ .logs) hl⟩
  · rw [if_neg hd, if_pos (show logLevelStatic m.level = true from rfl)]
    exact capture_meets c s σ h m t n (fun h1 => absurd h1 hd) s.reg
      (fun hl => by rw [if_neg hd]; exact h.levels (by rw [hl]; simp))

theorem init_result (src : Src) (f : Front) (w : Option Nat) :
    ((∃ k, f.inst = none ∧ w = some k ∧ (initializeLogging src f w).2.2 = .ok) ∨
     ((¬ (f.inst = none ∧ w.isSome = true)) ∧ (initializeLogging src f w).2.2 = .exitFailure)) := by
  unfold initializeLogging
  cases hi : f.inst <;> cases w <;> simp

theorem call_meets (c : SEnv) (s : SState) (σ : Lib) (h : SAgree s σ) (o : SOp) :
    SMeets s (sCall c s o) (∀ u, Uses c σ o u → s.life u = .alive) (σ.call c o) := by
  have hshut : SMeets s (s.onFront (shutDownLogging s.front, [], .ok)) True (⟨σ.levels, { σ.front with inst := none }⟩, [], .ok) := by
    refine ⟨fun hn => absurd trivial hn, fun _ => ⟨_, rfl, rfl, ?_, fun _ => ?_⟩⟩
    · show shutDownLogging s.front = _
      rw [h.front]; rfl
    · refine ⟨?_, h.fresh, h.levels, h.unset⟩
      show shutDownLogging s.front = _
      rw [h.front]; rfl
  have weaken : ∀ {out : SOut} {p : Prop} {r : Lib × List Eff × Stat}, SMeets s out True r → p → SMeets s out p r :=
    fun hm hp => ⟨fun hn => absurd hp hn, fun _ => hm.2 trivial⟩
  cases o with
  | log m t n => exact log_meets c s σ h m t n
  | init w =>
    have hcall : σ.call c (.init w) = (⟨σ.levels, (initializeLogging c.src σ.front w).1⟩, (initializeLogging c.src σ.front w).2) := rfl
    show SMeets s (sInit c s w) _ _
    unfold sInit
    rw [h.front, hcall]
    by_cases hc : (!σ.front.installed && !s.alive .crashhandler) = true
    · rw [if_pos hc]
      simp only [Bool.and_eq_true, Bool.not_eq_true'] at hc
      refine ⟨fun _ => rfl, fun hok => ?_⟩
      have h1 := alive_of (hok _ (.installs hc.1))
      rw [h1] at hc
      cases hc.2
    · rw [if_neg hc]
      dsimp only
      have hcr : σ.front.installed = false → s.life .crashhandler = .alive := by
        intro hi
        by_contra hna
        exact hc (by rw [hi, not_alive_of hna]; rfl)
      rcases init_result c.src σ.front w with ⟨k, h1, h2, h3⟩ | ⟨h1, h2⟩
      · subst h2
        by_cases hg : s.life .g3log = .alive
        · rw [if_neg (by rw [alive_of hg]; simp)]
          refine ⟨fun hno => absurd ?_ hno, fun _ => ⟨_, rfl, rfl, rfl, fun _ => ⟨rfl, h.fresh, h.levels, ?_⟩⟩⟩
          · intro u hu
            match u, hu with
            | _, .installs hi => exact hcr hi
            | _, .inits _ => exact hg
          · intro hz; simp only at hz; rw [hg] at hz; cases hz
        · rw [if_pos ⟨h3, not_alive_of hg⟩]
          exact ⟨fun _ => rfl, fun hok => absurd (hok _ (.inits h1)) hg⟩
      · rw [if_neg (by rw [h2]; simp)]
        refine ⟨fun hno => absurd ?_ hno, fun _ => ⟨_, rfl, rfl, rfl, fun hgo => ?_⟩⟩
        · intro u hu
          match w, u, hu with
          | _, _, .installs hi => exact hcr hi
          | _, _, .inits hi => exact absurd ⟨hi, rfl⟩ h1
        · rw [h2] at hgo; cases hgo
  | shutdown => exact weaken hshut (fun u hu => nomatch hu)
  | shutdownActive m w =>
    show SMeets s (sShutActive c s m w) _ _
    unfold sShutActive
    rw [h.front]
    have hsh := hshut
    rw [h.front] at hsh
    cases hi : σ.front.inst with
    | none =>
      rw [if_neg (by simp)]
      have hcall : σ.call c (.shutdownActive m w) = (⟨σ.levels, { σ.front with inst := none }⟩, [], .ok) := by
        simp only [Lib.call, hi]
      rw [hcall]
      refine weaken hsh (fun u hu => ?_)
      match u, hu with
      | _, .warns h1 _ => rw [hi] at h1; cases h1
      | _, .warning h1 _ _ => rw [hi] at h1; cases h1
    | some a =>
      cases w with
      | none =>
        rw [if_neg (by simp)]
        have hcall : σ.call c (.shutdownActive m none) = (⟨σ.levels, { σ.front with inst := none }⟩, [], .ok) := by
          simp only [Lib.call, hi]
        rw [hcall]
        exact weaken hsh (fun u hu => nomatch hu)
      | some b =>
        by_cases hab : a = b
        · subst hab
          rw [if_neg (by simp)]
          have hcall : σ.call c (.shutdownActive m (some a)) = (⟨σ.levels, { σ.front with inst := none }⟩, [], .ok) := by
            simp only [Lib.call, hi, if_true]
          rw [hcall]
          refine weaken hsh (fun u hu => ?_)
          match u, hu with
          | _, .warns h1 h2 => rw [hi] at h1; cases h1; exact absurd rfl h2
          | _, .warning h1 h2 _ => rw [hi] at h1; cases h1; exact absurd rfl h2
        · have hcall : σ.call c (.shutdownActive m (some b)) = σ.log c m [] 6 := by
            simp only [Lib.call, hi, if_neg hab]
          rw [if_pos ⟨rfl, rfl, by intro hx; cases hx; exact hab rfl⟩, hcall]
          by_cases hg : s.life .g3log = .alive
          · rw [if_pos (alive_of hg)]
            have hm := log_meets c s σ h m [] 6
            refine ⟨fun hno => hm.1 fun hok => hno ?_, fun hok => hm.2 fun u hu => hok u (.warning hi hab hu)⟩
            intro u hu
            match u, hu with
            | _, .warns .. => exact hg
            | _, .warning _ _ h3 => exact hok _ h3
          · rw [if_neg (by rw [not_alive_of hg]; simp)]
            exact ⟨fun _ => rfl, fun hok => absurd (hok _ (.warns hi hab)) hg⟩
  | setHook hk =>
    show SMeets s (if s.alive .g3log then _ else _) _ _
    by_cases hg : s.life .g3log = .alive
    · rw [if_pos (alive_of hg)]
      refine ⟨fun hno => absurd ?_ hno, fun _ => ⟨_, rfl, rfl, ?_, fun _ => ⟨?_, h.fresh, h.levels, ?_⟩⟩⟩
      · intro u hu; cases hu; exact hg
      · show setFatalPreLoggingHook s.front _ = _; rw [h.front]; rfl
      · show setFatalPreLoggingHook s.front _ = _; rw [h.front]; rfl
      · intro hz; simp only [] at hz; rw [show s.life .g3log = .zero from hz] at hg; cases hg
    · rw [if_neg (by rw [not_alive_of hg]; simp)]
      exact ⟨fun _ => rfl, fun hok => absurd (hok _ .setHook) hg⟩
  | setHandler hk =>
    show SMeets s (if s.alive .g3log then _ else _) _ _
    by_cases hg : s.life .g3log = .alive
    · rw [if_pos (alive_of hg)]
      refine ⟨fun hno => absurd ?_ hno, fun _ => ⟨_, rfl, rfl, ?_, fun _ => ⟨?_, h.fresh, h.levels, ?_⟩⟩⟩
      · intro u hu; cases hu; exact hg
      · show setFatalExitHandler s.front _ = _; rw [h.front]; rfl
      · show setFatalExitHandler s.front _ = _; rw [h.front]; rfl
      · intro hz; rw [show s.life .g3log = .zero from hz] at hg; cases hg
    · rw [if_neg (by rw [not_alive_of hg]; simp)]
      exact ⟨fun _ => rfl, fun hok => absurd (hok _ .setHandler) hg⟩
  | level lo =>
    show SMeets s (if c.dyn then _ else _) _ _
    have hcall : σ.call c (.level lo) = (⟨if c.dyn then (levelStep σ.levels lo).2 else σ.levels, σ.front⟩, [], .ok) := rfl
    rw [hcall]
    by_cases hd : c.dyn = true
    · rw [if_pos hd, if_pos hd]
      by_cases hl : s.life .loglevels = .alive
      · rw [if_pos (alive_of hl)]
        refine ⟨fun hno => absurd ?_ hno, fun _ => ⟨_, rfl, rfl, h.front, fun _ => ⟨h.front, ?_, fun _ => ?_, h.unset⟩⟩⟩
        · intro u hu; cases hu; exact hl
        · intro hz; rw [show s.life .loglevels = .zero from hz] at hl; cases hl
        · show (levelStep s.reg lo).2 = _
          rw [h.levels (by rw [hl]; simp)]
      · rw [if_neg (by rw [not_alive_of hl]; simp)]
        exact ⟨fun _ => rfl, fun hok => absurd (hok _ (.level hd)) hl⟩
    · rw [if_neg hd, if_neg hd]
      refine ⟨fun hno => absurd ?_ hno, fun _ => ⟨_, rfl, rfl, h.front, fun _ => h⟩⟩
      intro u hu
      match u, hu with
      | _, .level h1 => exact absurd h1 hd

theorem exec_append (c : SEnv) : ∀ (a b : List SEvt) (s : SState), sExec c s (a ++ b) =
    match sExec c s a with
    | .ub => .ub
    | .fin s' e st =>
      if st.goesOn then
        match sExec c s' b with
        | .ub => .ub
        | .fin s'' e' st' => .fin s'' (e ++ e') st'
      else .fin s' e st
  | [], b, s => by
    simp only [List.nil_append, sExec, Stat.goesOn, if_true]
    cases sExec c s b <;> rfl
  | v :: a, b, s => by
    simp only [List.cons_append, sExec]
    cases sEvt c s v with
    | ub => rfl
    | fin s' e st =>
      dsimp only
      by_cases hg : st.goesOn = true
      · rw [if_pos hg, if_pos hg, exec_append c a b s']
        cases sExec c s' a with
        | ub => rfl
        | fin s2 e2 st2 =>
          dsimp only
          by_cases hg2 : st2.goesOn = true
          · rw [if_pos hg2, if_pos hg2]
            cases sExec c s2 b with
            | ub => rfl
            | fin s3 e3 st3 => simp [List.append_assoc]
          · rw [if_neg hg2, if_neg hg2]
      · rw [if_neg hg, if_neg hg]
        dsimp only
        rw [if_neg hg]

open Classical in
/-- The calls with the source files each of them may use; `none` if one of them uses another. -/
noncomputable def stampRun (c : SEnv) (σ : Lib) : List (List LibFile × SOp) → Option (Lib × List Eff × Stat)
  | [] => some (σ, [], .ok)
  | (seen, o) :: r =>
    if ∀ u, Uses c σ o u → u ∈ seen then
      if (σ.call c o).2.2.goesOn then
        (stampRun c (σ.call c o).1 r).map fun b => (b.1, (σ.call c o).2.1 ++ b.2.1, b.2.2)
      else some (σ.call c o)
    else none

theorem stamp_append (c : SEnv) : ∀ (a b : List (List LibFile × SOp)) (σ : Lib), stampRun c σ (a ++ b) =
    match stampRun c σ a with
    | none => none
    | some r =>
      if r.2.2.goesOn then (stampRun c r.1 b).map fun x => (x.1, r.2.1 ++ x.2.1, x.2.2) else some r
  | [], b, σ => by
    simp only [List.nil_append, stampRun, Stat.goesOn, if_true]
    cases stampRun c σ b <;> simp
  | (seen, o) :: a, b, σ => by
    simp only [List.cons_append, stampRun]
    by_cases hu : ∀ u, Uses c σ o u → u ∈ seen
    · rw [if_pos hu, if_pos hu]
      by_cases hg : (σ.call c o).2.2.goesOn = true
      · rw [if_pos hg, if_pos hg, stamp_append c a b]
        cases stampRun c (σ.call c o).1 a with
        | none => rfl
        | some r =>
          simp only [Option.map_some]
          by_cases hg2 : r.2.2.goesOn = true
          · rw [if_pos hg2, if_pos hg2]
            cases stampRun c r.1 b <;> simp [List.append_assoc]
          · rw [if_neg hg2, if_neg hg2]; rfl
      · rw [if_neg hg, if_neg hg]
        dsimp only
        rw [if_neg hg]
    · rw [if_neg hu, if_neg hu]

theorem stamp_some (c : SEnv) : ∀ (l : List (List LibFile × SOp)) (σ : Lib) (r : Lib × List Eff × Stat),
    stampRun c σ l = some r → r = Lib.calls c σ (l.map Prod.snd)
  | [], σ, r, h => by simp only [stampRun, Option.some.injEq] at h; exact h.symm
  | (seen, o) :: l, σ, r, h => by
    simp only [stampRun] at h
    simp only [List.map_cons, Lib.calls]
    by_cases hu : ∀ u, Uses c σ o u → u ∈ seen
    · rw [if_pos hu] at h
      by_cases hg : (σ.call c o).2.2.goesOn = true
      · rw [if_pos hg] at h
        rw [if_pos hg]
        cases hr : stampRun c (σ.call c o).1 l with
        | none => rw [hr] at h; cases h
        | some x =>
          rw [hr] at h
          have := stamp_some c l _ x hr
          rw [← this]
          simpa using h.symm
      · rw [if_neg hg] at h
        rw [if_neg hg]
        simpa using h.symm
    · rw [if_neg hu] at h; cases h

theorem stamp_none (c : SEnv) : ∀ (l : List (List LibFile × SOp)) (σ : Lib), stampRun c σ l = none ↔
    ∃ pre seen o post, l = pre ++ (seen, o) :: post ∧ (Lib.calls c σ (pre.map Prod.snd)).2.2.goesOn = true ∧
      ∃ u, Uses c (Lib.calls c σ (pre.map Prod.snd)).1 o u ∧ u ∉ seen
  | [], σ => by simp [stampRun]
  | (seen, o) :: l, σ => by
    simp only [stampRun]
    by_cases hu : ∀ u, Uses c σ o u → u ∈ seen
    · rw [if_pos hu]
      by_cases hg : (σ.call c o).2.2.goesOn = true
      · rw [if_pos hg, Option.map_eq_none_iff, stamp_none c l]
        constructor
        · rintro ⟨pre, seen', o', post, h1, h2, h3⟩
          refine ⟨(seen, o) :: pre, seen', o', post, by rw [h1]; rfl, ?_, ?_⟩
          · simp only [List.map_cons, Lib.calls]; rw [if_pos hg]; exact h2
          · simp only [List.map_cons, Lib.calls]; rw [if_pos hg]; exact h3
        · rintro ⟨pre, seen', o', post, h1, h2, u, h3, h4⟩
          cases pre with
          | nil =>
            simp only [List.nil_append, List.cons.injEq, Prod.mk.injEq] at h1
            obtain ⟨⟨rfl, rfl⟩, rfl⟩ := h1
            exact absurd (hu u h3) h4
          | cons x pre =>
            simp only [List.cons_append, List.cons.injEq] at h1
            obtain ⟨rfl, rfl⟩ := h1
            simp only [List.map_cons, Lib.calls] at h2 h3
            rw [if_pos hg] at h2 h3
            exact ⟨pre, seen', o', post, rfl, h2, u, h3, h4⟩
      · rw [if_neg hg]
        constructor
        · intro h; cases h
        · rintro ⟨pre, seen', o', post, h1, h2, u, h3, h4⟩
          cases pre with
          | nil =>
            simp only [List.nil_append, List.cons.injEq, Prod.mk.injEq] at h1
            obtain ⟨⟨rfl, rfl⟩, rfl⟩ := h1
            exact absurd (hu u h3) h4
          | cons x pre =>
            simp only [List.cons_append, List.cons.injEq] at h1
            obtain ⟨rfl, rfl⟩ := h1
            simp only [List.map_cons, Lib.calls] at h2
            rw [if_neg hg] at h2
            exact absurd h2 hg
    · rw [if_neg hu]
      refine ⟨fun _ => ?_, fun _ => rfl⟩
      simp only [not_forall] at hu
      obtain ⟨u, h1, h2⟩ := hu
      exact ⟨[], seen, o, l, rfl, rfl, u, h1, h2⟩

/-- The result of events against the result of the calls among them; `life` is the state of the library's objects afterwards. -/
def SSim (life : LibFile → Life) (out : SOut) (res : Option (Lib × List Eff × Stat)) : Prop :=
  match res with
  | none => out = .ub
  | some r => ∃ s', out = .fin s' r.2.1 r.2.2 ∧ s'.front = r.1.front ∧ (r.2.2.goesOn = true → SAgree s' r.1 ∧ s'.life = life)

theorem static_append {c : SEnv} {s : SState} {σ : Lib} {a b : List SEvt} {la lb : List (List LibFile × SOp)} {l1 l2 : LibFile → Life}
    (h1 : SSim l1 (sExec c s a) (stampRun c σ la))
    (h2 : ∀ s' σ', SAgree s' σ' → s'.life = l1 → SSim l2 (sExec c s' b) (stampRun c σ' lb)) :
    SSim l2 (sExec c s (a ++ b)) (stampRun c σ (la ++ lb)) := by
  rw [exec_append, stamp_append]
  cases hr : stampRun c σ la with
  | none => rw [hr] at h1; rw [show sExec c s a = .ub from h1]; rfl
  | some r =>
    rw [hr] at h1
    obtain ⟨s', e1, e2, e3⟩ := h1
    rw [e1]
    dsimp only
    by_cases hg : r.2.2.goesOn = true
    · rw [if_pos hg, if_pos hg]
      have h := h2 s' r.1 (e3 hg).1 (e3 hg).2
      cases hx : stampRun c r.1 lb with
      | none => rw [hx] at h; rw [show sExec c s' b = .ub from h]; rfl
      | some x =>
        rw [hx] at h
        obtain ⟨s2, f1, f2, f3⟩ := h
        rw [f1]
        exact ⟨s2, rfl, f2, f3⟩
    · rw [if_neg hg, if_neg hg]
      exact ⟨s', rfl, e2, fun h => absurd h hg⟩

theorem static_calls (c : SEnv) (seen : List LibFile) : ∀ (ops : List SOp) (s : SState) (σ : Lib), SAgree s σ →
    (∀ u, s.life u = .alive ↔ u ∈ seen) → SSim s.life (sExec c s (ops.map .call)) (stampRun c σ (ops.map (seen, ·)))
  | [], s, σ, h, _ => ⟨s, rfl, h.front, fun _ => ⟨h, rfl⟩⟩
  | o :: ops, s, σ, h, hs => by
    have hm := call_meets c s σ h o
    simp only [List.map_cons, sExec, stampRun, sEvt]
    by_cases hu : ∀ u, Uses c σ o u → u ∈ seen
    · obtain ⟨s', e1, e2, e3, e4⟩ := hm.2 (fun u hx => (hs u).2 (hu u hx))
      rw [if_pos hu, e1]
      dsimp only
      by_cases hg : (σ.call c o).2.2.goesOn = true
      · rw [if_pos hg, if_pos hg]
        have ih := static_calls c seen ops s' (σ.call c o).1 (e4 hg) (by rw [e2]; exact hs)
        cases hx : stampRun c (σ.call c o).1 (ops.map (seen, ·)) with
        | none => rw [hx] at ih; rw [show sExec c s' (ops.map .call) = .ub from ih]; rfl
        | some x =>
          rw [hx] at ih
          obtain ⟨s2, f1, f2, f3⟩ := ih
          rw [f1]
          exact ⟨s2, rfl, f2, fun hg' => ⟨(f3 hg').1, (f3 hg').2.trans e2⟩⟩
      · rw [if_neg hg, if_neg hg]
        exact ⟨s', rfl, e3, fun h => absurd h hg⟩
    · rw [if_neg hu, hm.1 (fun hok => hu fun u hx => (hs u).1 (hok u hx))]
      rfl

/-- The events, entry by entry. -/
def nestedEvents (main : List SOp) : List Start → List SEvt
  | [] => main.map .call
  | st :: r => st.construct ++ nestedEvents main r ++ st.destruct

theorem events_nested (main : List SOp) : ∀ l : List Start,
    l.flatMap Start.construct ++ main.map SEvt.call ++ l.reverse.flatMap Start.destruct = nestedEvents main l
  | [] => by simp [nestedEvents]
  | st :: r => by
    simp only [List.flatMap_cons, List.reverse_cons, List.flatMap_append, List.flatMap_nil, List.append_nil, nestedEvents,
      ← events_nested main r, List.append_assoc]

theorem static_nested (c : SEnv) (main : List SOp) : ∀ (l : List Start) (seen : List LibFile) (s : SState) (σ : Lib), SAgree s σ →
    (∀ u, s.life u = .alive ↔ u ∈ seen) → (libsOf l).Nodup → (∀ u ∈ libsOf l, s.life u = .zero) →
    SSim (fun u => if u ∈ libsOf l then .dead else s.life u) (sExec c s (nestedEvents main l)) (stampRun c σ (callsWith main seen l))
  | [], seen, s, σ, h, hs, _, _ => by
    have := static_calls c seen main s σ h hs
    simpa [nestedEvents, callsWith, libsOf] using this
  | .obj ctor dtor :: r, seen, s, σ, h, hs, hn, hz => by
    refine static_append (l1 := fun u => if u ∈ libsOf r then .dead else s.life u) ?_ ?_
    · refine static_append (static_calls c seen ctor s σ h hs) fun s' σ' h' hl => ?_
      have := static_nested c main r seen s' σ' h' (by rw [hl]; exact hs) hn (by rw [hl]; exact hz)
      rw [hl] at this
      exact this
    · intro s' σ' h' hl
      have := static_calls c seen dtor s' σ' h' (fun u => by
        rw [hl]
        dsimp only
        by_cases hu : u ∈ libsOf r
        · rw [if_pos hu]
          refine ⟨fun hx => (nomatch hx), fun hx => ?_⟩
          have h1 := (hs u).2 hx
          rw [hz u hu] at h1
          cases h1
        · rw [if_neg hu]; exact hs u)
      rw [hl] at this
      exact this
  | .lib u :: r, seen, s, σ, h, hs, hn, hz => by
    have hnu : u ∉ libsOf r := (List.nodup_cons.1 hn).1
    have hnr : (libsOf r).Nodup := (List.nodup_cons.1 hn).2
    have hzu : s.life u = .zero := hz u (List.mem_cons_self ..)
    have hup : SAgree (sUp s u) σ := by
      refine ⟨?_, ?_, ?_, ?_⟩
      · show (if u = .g3log then { s.front with hook := none, handler := .default } else s.front) = σ.front
        by_cases hg : u = .g3log
        · subst hg
          rw [if_pos rfl, h.front]
          have hk := h.unset hzu
          rw [← hk.1, ← hk.2]
        · rw [if_neg hg, h.front]
      · intro hx
        by_cases hl : u = .loglevels
        · subst hl; simp [sUp] at hx
        · exact h.fresh (by simpa [sUp, Ne.symm hl] using hx)
      · intro hx
        by_cases hl : u = .loglevels
        · subst hl
          show (if LibFile.loglevels = .loglevels then defaultLevels else s.reg) = _
          rw [if_pos rfl, h.fresh hzu]
        · show (if u = .loglevels then defaultLevels else s.reg) = _
          rw [if_neg hl]
          exact h.levels (by simpa [sUp, Ne.symm hl] using hx)
      · intro hx
        by_cases hl : u = .g3log
        · subst hl; simp [sUp] at hx
        · exact h.unset (by simpa [sUp, Ne.symm hl] using hx)
    have hmid := static_nested c main r (u :: seen) (sUp s u) σ hup
      (fun v => by
        show (if v = u then Life.alive else s.life v) = .alive ↔ _
        by_cases hv : v = u
        · simp [hv]
        · rw [if_neg hv, hs v]; simp [hv])
      hnr (fun v hv => by
        show (if v = u then Life.alive else s.life v) = .zero
        rw [if_neg (by rintro rfl; exact hnu hv)]
        exact hz v (List.mem_cons_of_mem _ hv))
    have hfirst : SSim (fun v => if v ∈ libsOf r then .dead else (sUp s u).life v)
        (sExec c s (Start.construct (.lib u) ++ nestedEvents main r)) (stampRun c σ (callsWith main (u :: seen) r)) := by
      have : sExec c s (Start.construct (.lib u) ++ nestedEvents main r) = sExec c (sUp s u) (nestedEvents main r) := by
        simp only [Start.construct, List.cons_append, List.nil_append, sExec, sEvt, Stat.goesOn, if_true]
        cases sExec c (sUp s u) (nestedEvents main r) <;> rfl
      rw [this]
      exact hmid
    have := static_append (b := Start.destruct (.lib u)) (lb := []) (l2 := fun v => if v ∈ libsOf (.lib u :: r) then .dead else s.life v)
      hfirst (fun s' σ' h' hl => by
        refine ⟨sDown s' u, rfl, h'.front, fun _ => ⟨⟨h'.front, ?_, ?_, ?_⟩, ?_⟩⟩
        · intro hx
          by_cases hv : u = .loglevels
          · subst hv; simp [sDown] at hx
          · exact h'.fresh (by simpa [sDown, Ne.symm hv] using hx)
        · intro hx
          by_cases hv : u = .loglevels
          · subst hv
            refine h'.levels ?_
            rw [hl]
            dsimp only
            rw [if_neg hnu]
            simp [sUp]
          · exact h'.levels (by simpa [sDown, Ne.symm hv] using hx)
        · intro hx
          by_cases hv : u = .g3log
          · subst hv; simp [sDown] at hx
          · exact h'.unset (by simpa [sDown, Ne.symm hv] using hx)
        · funext v
          show (if v = u then Life.dead else s'.life v) = _
          rw [hl]
          by_cases hv : v = u
          · subst hv; simp [libsOf]
          · simp [libsOf, hv, sUp])
    rw [List.append_nil] at this
    exact this

theorem run_sim (c : SEnv) (p : SProg) (hp : Linked p) :
    SSim (fun _ => .dead) (p.run c) (stampRun c ⟨defaultLevels, Front.start⟩ (callsWith p.main [] p.startup)) := by
  have h0 : SAgree SState.start ⟨defaultLevels, Front.start⟩ :=
    ⟨rfl, fun _ => rfl, fun h => absurd rfl h, fun _ => ⟨rfl, rfl⟩⟩
  have := static_nested c p.main p.startup [] SState.start _ h0 (fun u => by simp [SState.start]) hp.1 (fun _ _ => rfl)
  rw [← events_nested] at this
  have he : (fun u => if u ∈ libsOf p.startup then Life.dead else SState.start.life u) = fun _ => .dead := by
    funext u; rw [if_pos (hp.2 u)]
  rw [he] at this
  exact this

theorem callsWith_order (main : List SOp) : ∀ (l : List Start) (seen : List LibFile), (callsWith main seen l).map Prod.snd =
    callOrder ⟨l, main⟩
  | [], seen => by simp [callsWith, callOrder, Function.comp_def]
  | .lib u :: r, seen => by
    simp only [callsWith, callsWith_order main r]
    simp [callOrder]
  | .obj ctor dtor :: r, seen => by
    simp only [callsWith, List.map_append, callsWith_order main r]
    simp [callOrder, Function.comp_def]

/-- **C101 (exactly when).** A program whose static objects use the library runs into undefined behaviour exactly if one of the calls it gets to uses
objects of a source file of the library that comes later in the order of construction than the object that makes the call, in its constructor or
its destructor. -/
theorem C101_exact (c : SEnv) (p : SProg) (hp : Linked p) : p.run c = .ub ↔ TooEarly c p := by
  have h := run_sim c p hp
  rw [TooEarly, ← stamp_none]
  cases hr : stampRun c ⟨defaultLevels, Front.start⟩ (callsWith p.main [] p.startup) with
  | none => rw [hr] at h; exact ⟨fun _ => rfl, fun _ => h⟩
  | some r =>
    rw [hr] at h
    obtain ⟨s', e, _⟩ := h
    refine ⟨fun hx => ?_, fun hx => nomatch hx⟩
    rw [e] at hx; cases hx

/-- **C101 (otherwise).** If there is no such call, the program behaves as if the library had been ready from the first call to the last: the effects,
the way the program ends and the state of the front end are those of the calls in order. -/
theorem C101_otherwise (c : SEnv) (p : SProg) (hp : Linked p) (hok : ¬ TooEarly c p) :
    ∃ s, p.run c = .fin s (Lib.calls c ⟨defaultLevels, Front.start⟩ (callOrder p)).2.1 (Lib.calls c ⟨defaultLevels, Front.start⟩ (callOrder p)).2.2 ∧
      s.front = (Lib.calls c ⟨defaultLevels, Front.start⟩ (callOrder p)).1.front := by
  have h := run_sim c p hp
  have hn := mt (C101_exact c p hp).1 hok
  cases hr : stampRun c ⟨defaultLevels, Front.start⟩ (callsWith p.main [] p.startup) with
  | none => rw [hr] at h; exact absurd h hn
  | some r =>
    rw [hr] at h
    have := stamp_some c _ _ _ hr
    rw [callsWith_order] at this
    obtain ⟨s', e, e2, _⟩ := h
    subst this
    exact ⟨s', e, e2⟩

/-- No library source file in the list. -/
theorem seen_grows (main : List SOp) : ∀ (l : List Start) (seen : List LibFile), ∀ x ∈ callsWith main seen l, ∀ u ∈ seen, u ∈ x.1
  | [], seen, x, hx, u, hu => by
    simp only [callsWith, List.mem_map] at hx
    obtain ⟨o, _, rfl⟩ := hx
    exact hu
  | .lib v :: r, seen, x, hx, u, hu => seen_grows main r (v :: seen) x hx u (List.mem_cons_of_mem _ hu)
  | .obj ctor dtor :: r, seen, x, hx, u, hu => by
    simp only [callsWith, List.mem_append, List.mem_map] at hx
    rcases hx with (⟨o, _, rfl⟩ | hx) | ⟨o, _, rfl⟩
    · exact hu
    · exact seen_grows main r seen x hx u hu
    · exact hu

theorem callsWith_libs (main : List SOp) : ∀ (us : List LibFile) (r : List Start) (seen : List LibFile),
    callsWith main seen (us.map .lib ++ r) = callsWith main (us.reverse ++ seen) r
  | [], r, seen => rfl
  | u :: us, r, seen => by
    simp only [List.map_cons, List.cons_append, callsWith, callsWith_libs main us r (u :: seen)]
    simp

/-- **C101 (partial).** If the linker puts the library first, as it does with a shared library, every call from constructors and destructors of static
objects works, whatever it is: the program's effects are those of its calls in order. The full statement has no condition on the order. -/
theorem C101_partial (c : SEnv) (us : List LibFile) (objs : List Start) (main : List SOp) (hall : ∀ u, u ∈ us) (hn : us.Nodup)
    (hobj : libsOf objs = []) :
    ∃ s, SProg.run c ⟨us.map .lib ++ objs, main⟩ =
        .fin s (Lib.calls c ⟨defaultLevels, Front.start⟩ (callOrder ⟨objs, main⟩)).2.1
          (Lib.calls c ⟨defaultLevels, Front.start⟩ (callOrder ⟨objs, main⟩)).2.2 ∧
      s.front = (Lib.calls c ⟨defaultLevels, Front.start⟩ (callOrder ⟨objs, main⟩)).1.front := by
  have hlibs : ∀ us : List LibFile, libsOf (us.map .lib ++ objs) = us := by
    intro us
    induction us with
    | nil => exact hobj
    | cons u us ih => simp only [List.map_cons, List.cons_append, libsOf, ih]
  have hp : Linked ⟨us.map .lib ++ objs, main⟩ := by
    constructor
    · show (libsOf (us.map .lib ++ objs)).Nodup
      rw [hlibs]; exact hn
    · intro u
      show u ∈ libsOf (us.map .lib ++ objs)
      rw [hlibs]; exact hall u
  have hord : callOrder ⟨us.map .lib ++ objs, main⟩ = callOrder ⟨objs, main⟩ := by
    rw [← callsWith_order main _ [], ← callsWith_order main objs (us.reverse ++ []), callsWith_libs]
  rw [← hord]
  refine C101_otherwise c _ hp ?_
  rintro ⟨pre, seen, o, post, h1, _, u, _, h3⟩
  simp only [callsWith_libs] at h1
  have := seen_grows main objs (us.reverse ++ []) (seen, o) (by rw [h1]; simp) u (by simp [hall u])
  exact h3 this

/-- The hypotheses hold for a program with one object that logs in its constructor and its destructor. -/
example : (∀ u, u ∈ [LibFile.loglevels, .g3log, .logmessage, .crashhandler]) ∧ [LibFile.loglevels, .g3log, .logmessage, .crashhandler].Nodup ∧
    ∀ m : LogMessage, libsOf [.obj [.log m [] 6] [.log m [] 6]] = [] :=
  ⟨fun u => by cases u <;> simp, by simp, fun _ => rfl⟩

/-- LOG at a level below FATAL. -/
def plainLog : SOp → Prop
  | .log m _ _ => m.level.value < 1000
  | _ => False

/-- **C101 (what LOG needs).** For objects that do nothing but LOG at levels below FATAL it is enough that the constants and levels of one source file,
loglevels.cpp, come first; the rest of the library may be constructed after them and destroyed before them. -/
theorem C101_enough (c : SEnv) (p : SProg) (hp : Linked p) (before after : List Start) (hs : p.startup = before ++ .lib .loglevels :: after)
    (hb : ∀ st ∈ before, ∀ ctor dtor, st = .obj ctor dtor → ctor = [] ∧ dtor = [])
    (ha : ∀ st ∈ after, ∀ ctor dtor, st = .obj ctor dtor → ∀ o ∈ ctor ++ dtor, plainLog o) :
    ∃ s, p.run c = .fin s (Lib.calls c ⟨defaultLevels, Front.start⟩ (callOrder p)).2.1
        (Lib.calls c ⟨defaultLevels, Front.start⟩ (callOrder p)).2.2 ∧
      s.front = (Lib.calls c ⟨defaultLevels, Front.start⟩ (callOrder p)).1.front := by
  refine C101_otherwise c p hp ?_
  -- every call either is made when everything is there, or is a plain LOG with loglevels.cpp there
  have key2 : ∀ (l : List Start) (seen : List LibFile), .loglevels ∈ seen →
      (∀ st ∈ l, ∀ ctor dtor, st = .obj ctor dtor → ∀ o ∈ ctor ++ dtor, plainLog o) →
      ∀ x ∈ callsWith p.main seen l, (plainLog x.2 ∧ .loglevels ∈ x.1) ∨ ∀ u, u ∈ seen ∨ u ∈ libsOf l → u ∈ x.1 := by
    intro l
    induction l with
    | nil =>
      intro seen _ _ x hx
      simp only [callsWith, List.mem_map] at hx
      obtain ⟨o, _, rfl⟩ := hx
      exact .inr fun u hu => hu.elim id (fun h => nomatch h)
    | cons st r ih =>
      intro seen hl hpl x hx
      cases st with
      | lib v =>
        rcases ih (v :: seen) (List.mem_cons_of_mem _ hl) (fun st h => hpl st (List.mem_cons_of_mem _ h)) x hx with h | h
        · exact .inl h
        · refine .inr fun u hu => h u ?_
          simp only [libsOf, List.mem_cons] at hu ⊢
          rcases hu with hu | hu | hu
          · exact .inl (.inr hu)
          · exact .inl (.inl hu)
          · exact .inr hu
      | obj ctor dtor =>
        have hme := hpl _ (List.mem_cons_self ..) ctor dtor rfl
        simp only [callsWith, List.mem_append, List.mem_map] at hx
        rcases hx with (⟨o, ho, rfl⟩ | hx) | ⟨o, ho, rfl⟩
        · exact .inl ⟨hme o (List.mem_append_left _ ho), hl⟩
        · exact ih seen hl (fun st h => hpl st (List.mem_cons_of_mem _ h)) x hx
        · exact .inl ⟨hme o (List.mem_append_right _ ho), hl⟩
  have key1 : ∀ (l : List Start) (seen : List LibFile), (∀ st ∈ l, ∀ ctor dtor, st = .obj ctor dtor → ctor = [] ∧ dtor = []) →
      ∀ x ∈ callsWith p.main seen (l ++ .lib .loglevels :: after),
        (plainLog x.2 ∧ .loglevels ∈ x.1) ∨ ∀ u, u ∈ seen ∨ u ∈ libsOf (l ++ .lib .loglevels :: after) → u ∈ x.1 := by
    intro l
    induction l with
    | nil =>
      intro seen _ x hx
      rcases key2 after (.loglevels :: seen) (List.mem_cons_self ..) ha x hx with h | h
      · exact .inl h
      · refine .inr fun u hu => h u ?_
        simp only [List.nil_append, libsOf, List.mem_cons] at hu ⊢
        rcases hu with hu | hu | hu
        · exact .inl (.inr hu)
        · exact .inl (.inl hu)
        · exact .inr hu
    | cons st r ih =>
      intro seen hem x hx
      cases st with
      | lib v =>
        rcases ih (v :: seen) (fun st h => hem st (List.mem_cons_of_mem _ h)) x hx with h | h
        · exact .inl h
        · refine .inr fun u hu => h u ?_
          simp only [List.cons_append, libsOf, List.mem_cons] at hu ⊢
          rcases hu with hu | hu | hu
          · exact .inl (.inr hu)
          · exact .inl (.inl hu)
          · exact .inr hu
      | obj ctor dtor =>
        obtain ⟨rfl, rfl⟩ := hem _ (List.mem_cons_self ..) ctor dtor rfl
        simp only [List.cons_append, callsWith, List.map_nil, List.nil_append, List.append_nil] at hx
        exact ih seen (fun st h => hem st (List.mem_cons_of_mem _ h)) x hx
  rintro ⟨pre, seen, o, post, h1, _, u, hu, h3⟩
  rcases key1 before [] hb (seen, o) (by rw [← hs, h1]; simp) with ⟨ho, hl⟩ | h
  · cases o with
    | log m t n =>
      have hlt : m.level.value < 1000 := ho
      match u, hu, h3 with
      | _, .logs, h3 => exact h3 hl
      | _, .hook _ hge, _ => omega
      | _, .dies _ hge _ _, _ => omega
    | _ => exact ho
  · exact h3 (h u (.inr (by rw [← hs]; exact hp.2 u)))

/-- The hypotheses hold for a program whose object comes right after loglevels.cpp. -/
example (m : LogMessage) (hm : m.level = INFO) :
    let p : SProg := ⟨[.lib .loglevels, .obj [.log m [] 6] [.log m [] 6], .lib .crashhandler, .lib .g3log, .lib .logmessage], [.init (some 0)]⟩
    Linked p ∧ ∃ before after, p.startup = before ++ .lib .loglevels :: after ∧
      (∀ st ∈ before, ∀ ctor dtor, st = .obj ctor dtor → ctor = [] ∧ dtor = []) ∧
      ∀ st ∈ after, ∀ ctor dtor, st = .obj ctor dtor → ∀ o ∈ ctor ++ dtor, plainLog o := by
  refine ⟨⟨by simp [libsOf], fun u => by cases u <;> simp [libsOf]⟩, [], _, rfl, by simp, ?_⟩
  intro st hst ctor dtor he o ho
  subst he
  simp at hst
  obtain ⟨rfl, rfl⟩ := hst
  simp at ho
  subst ho
  show m.level.value < 1000
  rw [hm]; decide

/-- **C101 (constructors).** A static object that is constructed before loglevels.cpp's own objects may not LOG in its constructor, at any level. -/
theorem C101_constructor (c : SEnv) (p : SProg) (hp : Linked p) (before after : List Start) (m : LogMessage) (t : Str) (n : Int)
    (more dtor : List SOp) (hs : p.startup = before ++ .obj (.log m t n :: more) dtor :: after) (hl : .loglevels ∉ libsOf before)
    (hb : ∀ st ∈ before, ∀ ctor dtor, st = .obj ctor dtor → ctor = []) : p.run c = .ub := by
  rw [C101_exact c p hp, TooEarly, hs]
  have hcw : ∀ (l : List Start) (seen : List LibFile), (∀ st ∈ l, ∀ ctor dtor, st = .obj ctor dtor → ctor = []) →
      .loglevels ∉ libsOf l → .loglevels ∉ seen →
      ∃ seen' post, .loglevels ∉ seen' ∧
        callsWith p.main seen (l ++ .obj (.log m t n :: more) dtor :: after) = (seen', .log m t n) :: post := by
    intro l
    induction l with
    | nil =>
      intro seen _ _ hsn
      exact ⟨seen, _, hsn, rfl⟩
    | cons st r ih =>
      intro seen hem hlib hsn
      cases st with
      | lib v =>
        simp only [libsOf, List.mem_cons, not_or] at hlib
        exact ih (v :: seen) (fun st h => hem st (List.mem_cons_of_mem _ h)) hlib.2 (by simp [hlib.1, hsn])
      | obj ctor dtor' =>
        obtain rfl := hem _ (List.mem_cons_self ..) ctor dtor' rfl
        obtain ⟨seen', post, h1, h2⟩ := ih seen (fun st h => hem st (List.mem_cons_of_mem _ h)) hlib hsn
        refine ⟨seen', post ++ dtor'.map (seen, ·), h1, ?_⟩
        simp only [List.cons_append, callsWith, List.map_nil, List.nil_append]
        rw [h2]; rfl
  obtain ⟨seen', post, h1, h2⟩ := hcw before [] hb hl (by simp)
  exact ⟨[], seen', _, post, h2, rfl, .loglevels, .logs, h1⟩

theorem lib_log_ok (c : SEnv) (σ : Lib) (m : LogMessage) (t : Str) (n : Int) (h : m.level.value < 1000) : (σ.log c m t n).2.2 = .ok := by
  unfold Lib.log
  dsimp only
  split
  · rfl
  · rw [if_neg (show ¬ 1000 ≤ m.level.value by omega)]
    show (pushMessageToLogger σ.front m).2.2 = .ok
    unfold pushMessageToLogger
    split
    · split <;> rfl
    · rfl

/-- The order a linker may choose for a program that has the library linked statically: the program's object first. -/
def staticOrder (ctor dtor main : List SOp) : SProg :=
  ⟨[.obj ctor dtor, .lib .crashhandler, .lib .g3log, .lib .logmessage, .lib .loglevels], main⟩

theorem staticOrder_linked (ctor dtor main : List SOp) : Linked (staticOrder ctor dtor main) :=
  ⟨by simp [staticOrder, libsOf], fun u => by cases u <;> simp [staticOrder, libsOf]⟩

/-- **C101 (negation).** Neither a LOG(INFO) in the constructor of a static object nor one in its destructor, after `main` has initialised logging
and shut it down as documented, is harmless: with the library linked statically both can be undefined behaviour, in either build. -/
theorem C101_negation (c : SEnv) (m : LogMessage) (hm : m.level = INFO) :
    (SProg.run c (staticOrder [.log m [] 6] [] []) = .ub) ∧
    SProg.run c (staticOrder [] [.log m [] 6] [.init (some 0), .log m [] 6, .shutdown]) = .ub := by
  refine ⟨C101_constructor c _ (staticOrder_linked ..) [] _ m [] 6 [] [] rfl (by simp [libsOf]) (by simp), ?_⟩
  rw [C101_exact c _ (staticOrder_linked ..)]
  refine ⟨[.init (some 0), .log m [] 6, .shutdown].map ([.loglevels, .logmessage, .g3log, .crashhandler], ·), [], .log m [] 6, [], rfl, ?_,
    .loglevels, .logs, by simp⟩
  have hcons : ∀ (σ : Lib) (o : SOp) (r : List SOp), (σ.call c o).2.2 = .ok → (Lib.calls c σ (o :: r)).2.2 = (Lib.calls c (σ.call c o).1 r).2.2 := by
    intro σ o r h
    simp only [Lib.calls]
    rw [if_pos (by rw [h]; rfl)]
  show (Lib.calls c _ [.init (some 0), .log m [] 6, .shutdown]).2.2.goesOn = true
  rw [hcons _ _ _ rfl, hcons _ (.log m [] 6) _ (lib_log_ok c _ m [] 6 (by rw [hm]; decide)), hcons _ _ _ rfl]
  rfl

/-- **C101 (what it looks like).** On an implementation where the memory of the objects is still zero, LOG from such a constructor in a build without
dynamic levels leaves by `std::bad_function_call`, at every level whose value is not negative: nothing is printed and the message is gone.
Only levels with negative values are treated as usual. -/
theorem C101_zero (c : SEnv) (f : Front) (m : LogMessage) (t : Str) (n : Int) (d : Nat) (hd : c.depth = d + 1) :
    (0 ≤ m.level.value → (zeroLog c f m t n).2 = ([], .badCall) ∧ (zeroLog c f m t n).1.first = f.first) ∧
    (m.level.value < 0 → zeroLog c f m t n = pushMessageToLogger f m) := by
  constructor
  · intro h
    unfold zeroLog
    rw [if_pos h, hd]
    exact ⟨rfl, rfl⟩
  · intro h
    unfold zeroLog
    rw [if_neg (by omega)]

/-- Both cases occur. -/
example : (0 : Int) ≤ INFO.value ∧ (⟨-1, "TRACE".toList⟩ : Level).value < 0 := by decide

end G3.Props
