import Verif.Spec.HookUse
import Verif.Props.SinkDtorFatal
import Mathlib.Tactic.ByContra
/-
C112: a pre-fatal hook that uses the library.
-/
namespace G3.Props
open G3 G3.Spec

variable {M : Type}

/-! ### The steps of the whole -/

/-- The steps of the whole, case by case. -/
inductive HkTr : HkState M → HkLabel M → HkState M → Prop
  | base {s l w} : hkOk s l = true → wStep s.w l = some w → HkTr s (.base l) { s with w := w, active := hkActive s l }
  | logged {s m w} : s.active = true → wStep s.w (.save m) = some w → HkTr s (.log m) { s with w := w }
  | lost {s m} : s.active = false → HkTr s (.log m) { s with unlogged := s.unlogged ++ [m] }
  | crash {s m r} : s.pc = .calm → HkTr s (.crash m r) { s with pc := .inside m r }
  | actLogged {s x m r w} : s.pc = .inside m (.log x :: r) → s.active = true → wStep s.w (.save x) = some w → HkTr s (.act (.log x)) { s with w := w, pc := .inside m r }
  | actLost {s x m r} : s.pc = .inside m (.log x :: r) → s.active = false → HkTr s (.act (.log x)) { s with unlogged := s.unlogged ++ [x], pc := .inside m r }
  | actSync {s c m r w} : s.pc = .inside m (.sync c :: r) → hkCan s.w c = true → wStep s.w (DtSync.label c) = some w →
      HkTr s (.act (.sync c)) { s with w := w, pc := .waiting s.w.calls.length m r }
  | actSkip {s c m r} : s.pc = .inside m (.sync c :: r) → hkCan s.w c = false → HkTr s (.act (.sync c)) { s with pc := .inside m r }
  | actShut {s m r} : s.pc = .inside m (.shutdown :: r) → HkTr s (.act .shutdown) { s with active := false, pc := .inside m r }
  | actDestroy {s m r w} : s.pc = .inside m (.destroy :: r) → s.w.phase = .notStarted → wStep s.w .dtor = some w →
      HkTr s (.act .destroy) { s with w := w, active := false, pc := .destroying m r }
  | actTwice {s m r} : s.pc = .inside m (.destroy :: r) → s.w.phase ≠ .notStarted → HkTr s (.act .destroy) { s with w := { s.w with ub := true } }
  | back {s k m r w} : s.pc = .waiting k m r → wStep s.w (.ret k) = some w → HkTr s .back { s with w := w, pc := .inside m r }
  | gone {s m r} : s.pc = .destroying m r → s.w.phase = .returned → HkTr s .gone { s with pc := .inside m r }
  | report {s m w} : s.pc = .inside m [] → s.active = true → wStep s.w (.fatal m) = some w → HkTr s (.finish m) { s with w := w, pc := .asleep }
  | cry {s m} : s.pc = .inside m [] → s.active = false → HkTr s (.finish m) { s with reports := s.reports ++ [m], pc := .over }

variable [DecidableEq M]

theorem hk_tr {s s' : HkState M} {l : HkLabel M} (h : hkStep s l = some s') :
    (s.w.ub = false ∧ s.w.wpc.isDead = false ∧ s.pc.isOver = false) ∧ HkTr s l s' := by
  unfold hkStep at h
  split at h
  · cases h
  rename_i hu
  have hu' : s.w.ub = false ∧ s.w.wpc.isDead = false ∧ s.pc.isOver = false := by
    simpa [Bool.or_eq_true, and_assoc] using hu
  refine ⟨hu', ?_⟩
  cases l with
  | base l =>
    simp only at h
    split at h
    · rename_i hk
      obtain ⟨w, hb, rfl⟩ := Option.map_eq_some_iff.1 h
      exact .base hk hb
    · cases h
  | log m =>
    simp only [hkLog] at h
    cases ha : s.active with
    | true =>
      rw [if_pos ha] at h
      obtain ⟨w, hb, rfl⟩ := Option.map_eq_some_iff.1 h
      exact .logged ha hb
    | false =>
      rw [if_neg (by simp [ha])] at h
      cases h
      exact .lost ha
  | crash m r =>
    simp only at h
    split at h
    · rename_i hc
      cases h
      exact .crash (by cases hp : s.pc <;> rw [hp] at hc <;> first | rfl | cases hc)
    · cases h
  | act a =>
    simp only at h
    split at h
    · rename_i m b r hp
      split at h
      · rename_i hab
        subst hab
        cases a with
        | log x =>
          simp only [hkAct, hkLog] at h
          cases ha : s.active with
          | true =>
            rw [if_pos ha] at h
            simp only [Option.map_map] at h
            obtain ⟨w, hb, rfl⟩ := Option.map_eq_some_iff.1 h
            exact .actLogged hp ha hb
          | false =>
            rw [if_neg (by simp [ha])] at h
            cases h
            exact .actLost hp ha
        | sync c =>
          simp only [hkAct] at h
          split at h
          · rename_i hc
            obtain ⟨w, hb, rfl⟩ := Option.map_eq_some_iff.1 h
            exact .actSync hp hc hb
          · rename_i hc
            cases h
            exact .actSkip hp (by simpa using hc)
        | shutdown => cases h; exact .actShut hp
        | destroy =>
          simp only [hkAct] at h
          split at h
          · rename_i hph
            obtain ⟨w, hb, rfl⟩ := Option.map_eq_some_iff.1 h
            exact .actDestroy hp hph hb
          · rename_i hph
            cases h
            exact .actTwice hp hph
      · cases h
    · cases h
  | back =>
    simp only at h
    split at h
    · rename_i k m r hp
      obtain ⟨w, hb, rfl⟩ := Option.map_eq_some_iff.1 h
      exact .back hp hb
    · cases h
  | gone =>
    simp only at h
    split at h
    · rename_i m r hp
      split at h
      · rename_i hph
        cases h
        exact .gone hp hph
      · cases h
    · cases h
  | finish m =>
    simp only at h
    split at h
    · rename_i m' hp
      split at h
      · rename_i hm
        subst hm
        simp only [hkReport] at h
        cases ha : s.active with
        | true =>
          rw [if_pos ha] at h
          obtain ⟨w, hb, rfl⟩ := Option.map_eq_some_iff.1 h
          exact .report hp ha hb
        | false =>
          rw [if_neg (by simp [ha])] at h
          cases h
          exact .cry hp ha
      · cases h
    · cases h

theorem hk_append {a b : List (HkLabel M)} : ∀ {s s' : HkState M}, hkRun s (a ++ b) = some s' → ∃ u, hkRun s a = some u ∧ hkRun u b = some s' := by
  induction a with
  | nil => intro s s' h; exact ⟨s, rfl, h⟩
  | cons l a ih =>
    intro s s' h
    obtain ⟨v, hv, h⟩ := Option.bind_eq_some_iff.1 h
    obtain ⟨u, hu, hb⟩ := ih h
    exact ⟨u, by show (hkStep s l).bind _ = _; rw [hv]; exact hu, hb⟩

theorem hk_append' {a b : List (HkLabel M)} : ∀ {s u s' : HkState M}, hkRun s a = some u → hkRun u b = some s' → hkRun s (a ++ b) = some s' := by
  induction a with
  | nil => intro s u s' h g; cases h; exact g
  | cons l a ih =>
    intro s u s' h g
    obtain ⟨v, hv, h⟩ := Option.bind_eq_some_iff.1 h
    show (hkStep s l).bind _ = _
    rw [hv]; exact ih h g

theorem hk_induct {P : HkState M → Prop} (hstep : ∀ s l s', P s → HkTr s l s' → P s') (ls : List (HkLabel M)) :
    ∀ {s s' : HkState M}, P s → hkRun s ls = some s' → P s' := by
  induction ls with
  | nil => intro s s' h hr; cases hr; exact h
  | cons l ls ih =>
    intro s s' h hr
    obtain ⟨v, hv, hr⟩ := Option.bind_eq_some_iff.1 hr
    exact ih (hstep _ _ _ h (hk_tr hv).2) hr

/-! ### Until when entries and the report reach the worker -/

omit [DecidableEq M] in
theorem hk_off {s s' : HkState M} {l : HkLabel M} (h : HkTr s l s') (hi : s.active = false) : s'.active = false := by
  cases h with
  | @base l w hk hb => show hkActive s l = false; cases l <;> simp [hkActive, hi]
  | actShut => rfl
  | actDestroy => rfl
  | _ => exact hi

omit [DecidableEq M] in
theorem hk_active_step {s s' : HkState M} {l : HkLabel M} (h : HkTr s l s') (hu : s'.w.ub = false) (P : Prop)
    (hi : s.active = true ↔ s.w.phase = .notStarted ∧ NoFatal s.w ∧ P) :
    s'.active = true ↔ s'.w.phase = .notStarted ∧ NoFatal s'.w ∧ P ∧ l ≠ .act .shutdown := by
  have keep : ∀ {x : WLabel M} {w : WState M}, wStep s.w x = some w → x ≠ .dtor → x ≠ .work → l ≠ .act .shutdown →
      (s.active = true ↔ w.phase = .notStarted ∧ NoFatal w ∧ P ∧ l ≠ .act .shutdown) := by
    intro x w hb h1 h2 h3
    obtain ⟨a, b, _⟩ := step_frame hb
    rw [a h1, noFatal_more (Or.inl (b h2)), hi]; simp [h3]
  have same : l ≠ .act .shutdown → (s.active = true ↔ s.w.phase = .notStarted ∧ NoFatal s.w ∧ P ∧ l ≠ .act .shutdown) := by
    intro h3; rw [hi]; simp [h3]
  cases h with
  | @base l w hk hb =>
    by_cases h1 : l = .dtor
    · subst h1
      have := (step_frame hb).2.2.1 rfl
      simp only [hkActive]
      constructor
      · intro e; cases e
      · intro e; exact absurd e.1 this
    by_cases h2 : l = .work
    · subst h2
      have hph := (step_frame hb).1 h1
      show (s.active && !takesFatal s.w) = true ↔ w.phase = .notStarted ∧ NoFatal w ∧ P ∧ _
      rcases work_err hb with ⟨ht, m, he⟩ | ⟨ht, he⟩
      · rw [ht, Bool.not_true, Bool.and_false]
        constructor
        · intro e; cases e
        · intro e; exact absurd (by rw [he]; simp) (e.2.1 m)
      · rw [ht, Bool.not_false, Bool.and_true, hph, noFatal_more he]; exact same nofun
    · have : hkActive s l = s.active := by cases l <;> first | rfl | exact absurd rfl h1 | exact absurd rfl h2
      show hkActive s l = true ↔ _
      rw [this]
      exact keep hb h1 h2 nofun
  | logged _ hb => exact keep hb nofun nofun nofun
  | lost => exact same nofun
  | crash => exact same nofun
  | actLogged _ _ hb => exact keep hb nofun nofun nofun
  | actLost => exact same nofun
  | @actSync c _ _ _ _ _ hb => exact keep hb (by cases c <;> nofun) (by cases c <;> nofun) nofun
  | actSkip => exact same nofun
  | actShut => exact ⟨nofun, fun e => absurd rfl e.2.2.2⟩
  | actDestroy _ _ hb => exact ⟨nofun, fun e => absurd e.1 ((step_frame hb).2.2.1 rfl)⟩
  | actTwice => cases hu
  | back _ hb => exact keep hb nofun nofun nofun
  | gone => exact same nofun
  | report _ _ hb => exact keep hb nofun nofun nofun
  | cry => exact same nofun

theorem hk_ub {s s' : HkState M} {ls : List (HkLabel M)} (hu : s.w.ub = true) (h : hkRun s ls = some s') : ls = [] ∧ s' = s := by
  cases ls with
  | nil => cases h; exact ⟨rfl, rfl⟩
  | cons l ls =>
    obtain ⟨v, hv, _⟩ := Option.bind_eq_some_iff.1 h
    have := (hk_tr hv).1.1
    rw [hu] at this; cases this

theorem hk_noub {s s' : HkState M} {ls : List (HkLabel M)} (h : hkRun s ls = some s') (hu : s'.w.ub = false) : s.w.ub = false := by
  cases e : s.w.ub with
  | false => rfl
  | true => obtain ⟨_, rfl⟩ := hk_ub e h; rw [e] at hu; cases hu

/-- C112: entries and the report are handed to the worker exactly as long as nobody, the hook included, has begun to destroy it or shut logging down, and it has taken up no fatal message. -/
theorem C112_active {ls : List (HkLabel M)} {s : HkState M} (h : hkRun .start ls = some s) (hu : s.w.ub = false) :
    s.active = true ↔ s.w.phase = .notStarted ∧ NoFatal s.w ∧ .act .shutdown ∉ ls := by
  have gen : ∀ (ls : List (HkLabel M)) (P : Prop) {s s' : HkState M}, hkRun s ls = some s' → s'.w.ub = false →
      (s.active = true ↔ s.w.phase = .notStarted ∧ NoFatal s.w ∧ P) → (s'.active = true ↔ s'.w.phase = .notStarted ∧ NoFatal s'.w ∧ P ∧ .act .shutdown ∉ ls) := by
    intro ls
    induction ls with
    | nil => intro P s s' h _ hi; cases h; rw [hi]; simp
    | cons l ls ih =>
      intro P s s' h hu hi
      obtain ⟨v, hv, hr⟩ := Option.bind_eq_some_iff.1 h
      have hs := hk_active_step (hk_tr hv).2 (hk_noub hr hu) P hi
      rw [ih (P ∧ l ≠ .act .shutdown) hr hu hs]
      simp only [List.mem_cons, not_or, ne_eq, and_assoc]
      constructor
      · rintro ⟨a, b, c, d, e⟩; exact ⟨a, b, c, fun x => d x.symm, e⟩
      · rintro ⟨a, b, c, d, e⟩; exact ⟨a, b, c, fun x => d x.symm, e⟩
  have := gen ls True h hu (by constructor <;> intro _ <;> first | rfl | exact ⟨rfl, nofun, trivial⟩)
  simpa using this

/-! ### The requests -/

omit [DecidableEq M] in
theorem given_append (a b : List (HkLabel M)) : given (a ++ b) = given a ++ given b := by
  induction a with
  | nil => rfl
  | cons l a ih =>
    cases l with
    | act x => cases x <;> simp [given, ih]
    | _ => simp [given, ih]

/-- The number of things that reach the worker in a schedule from `s`. -/
structure HkCut (s : HkState M) (ls : List (HkLabel M)) (c : Nat) : Prop where
  le : c ≤ (given ls).length
  on : ∀ pre post u, ls = pre ++ post → hkRun s pre = some u → u.active = true → (given pre).length ≤ c
  off : ∀ pre post u, ls = pre ++ post → hkRun s pre = some u → u.active = false → c ≤ (given pre).length

theorem hkCut_nil (s : HkState M) : HkCut s [] 0 :=
  ⟨Nat.le_refl _, fun pre post u e _ _ => by rw [(List.append_eq_nil_iff.1 e.symm).1]; exact Nat.le_refl _, fun _ _ _ _ _ _ => Nat.zero_le _⟩

theorem hkCut_cons {s s1 : HkState M} {l : HkLabel M} {ls : List (HkLabel M)} {n d : Nat} (hs : hkStep s l = some s1) (h : HkCut s1 ls n)
    (hd : (given [l]).length = d) (ho : s.active = false → n + d = 0) : HkCut s (l :: ls) (n + d) := by
  have hl : ∀ t, (given (l :: t)).length = d + (given t).length := by
    intro t
    rw [show l :: t = [l] ++ t from rfl, given_append, List.length_append, hd]
  have split : ∀ pre post u, l :: ls = pre ++ post → hkRun s pre = some u → (pre = [] ∧ u = s) ∨ ∃ p, pre = l :: p ∧ ls = p ++ post ∧ hkRun s1 p = some u := by
    intro pre post u e hr
    cases pre with
    | nil => cases hr; exact Or.inl ⟨rfl, rfl⟩
    | cons x p =>
      obtain ⟨rfl, e2⟩ := List.cons.inj e
      obtain ⟨v, hv, hr⟩ := Option.bind_eq_some_iff.1 hr
      rw [hs] at hv; cases hv
      exact Or.inr ⟨p, rfl, e2, hr⟩
  refine ⟨by rw [hl]; have := h.le; omega, fun pre post u e hr ha => ?_, fun pre post u e hr ha => ?_⟩
  · rcases split pre post u e hr with ⟨rfl, rfl⟩ | ⟨p, rfl, e2, hr⟩
    · exact Nat.zero_le _
    · rw [hl]; have := h.on p post u e2 hr ha; omega
  · rcases split pre post u e hr with ⟨rfl, rfl⟩ | ⟨p, rfl, e2, hr⟩
    · rw [ho ha]; exact Nat.zero_le _
    · rw [hl]; have := h.off p post u e2 hr ha; omega

theorem hkCut_off {s : HkState M} {ls : List (HkLabel M)} {n : Nat} (h : HkCut s ls n) (ha : s.active = false) : n = 0 :=
  Nat.le_zero.1 (h.off [] ls s rfl rfl ha)

theorem hkCut_lost {s s1 : HkState M} {l : HkLabel M} {ls : List (HkLabel M)} (hs : hkStep s l = some s1) (ha : s.active = false) : HkCut s (l :: ls) 0 := by
  refine ⟨Nat.zero_le _, fun pre post u e hp hu' => ?_, fun _ _ _ _ _ _ => Nat.zero_le _⟩
  have : u.active = false := hk_induct (P := fun s => s.active = false) (fun _ _ _ a t => hk_off t a) _ ha hp
  rw [this] at hu'; cases hu'

omit [DecidableEq M] in
theorem step_n {s s' : WState M} {l : WLabel M} (h : wStep s l = some s') : s'.ub = true ∨ s'.n = s.n + sinksIn l := by
  unfold wStep at h
  split at h
  · cases h
  · cases l with
    | work =>
      simp only [workStep, takeTask] at h
      refine Or.inr ?_
      repeat' split at h
      all_goals first | (cases h; done) | (cases h; rfl)
    | save m => simp only at h; split at h <;> (cases h; first | exact Or.inl rfl | exact Or.inr rfl)
    | fatal m => simp only at h; split at h <;> (cases h; first | exact Or.inl rfl | exact Or.inr rfl)
    | add =>
      simp only [Option.some.injEq] at h; subst h
      unfold addStep beginCall
      repeat' split
      all_goals first | exact Or.inl rfl | exact Or.inr rfl
    | remove i =>
      simp only at h; split at h
      · cases h; unfold beginCall; repeat' split
        all_goals first | exact Or.inl rfl | exact Or.inr rfl
      · cases h
    | clear =>
      simp only [Option.some.injEq] at h; subst h
      unfold beginCall
      repeat' split
      all_goals first | exact Or.inl rfl | exact Or.inr rfl
    | ret k =>
      simp only [retStep] at h
      split at h
      · cases h
      · split at h
        · split at h
          · cases h; unfold clientDrop; split <;> exact Or.inr rfl
          · cases h; exact Or.inr rfl
        · cases h
    | hold i => simp only at h; split at h <;> cases h; exact Or.inr rfl
    | holdFail i c => simp only at h; split at h <;> cases h; exact Or.inr rfl
    | call i c => simp only at h; split at h <;> cases h; exact Or.inr rfl
    | release i =>
      simp only at h; split at h <;> cases h
      unfold clientDrop; split <;> exact Or.inr rfl
    | reap i => simp only at h; split at h <;> cases h; exact Or.inr rfl
    | dtor =>
      simp only [dtorStep] at h
      refine Or.inr ?_
      repeat' split at h
      all_goals first | (cases h; done) | (cases h; rfl)
    | sinkPop i =>
      simp only [sinkPop] at h
      split at h
      · split at h <;> cases h; exact Or.inr rfl
      · cases h
    | sinkFin i =>
      simp only [sinkFin] at h
      split at h
      · split at h <;> cases h <;> exact Or.inr rfl
      · cases h
    | sinkFatal i m =>
      simp only at h
      split at h
      · split at h <;> cases h <;> first | exact Or.inl rfl | exact Or.inr rfl
      · cases h

/-- From any state. -/
theorem hk_requests (ls : List (HkLabel M)) : ∀ {s s' : HkState M} (j : Nat), hkRun s ls = some s' → s'.w.ub = false → (∀ k, s.pc.waitsFor = some k → k = j) →
    ∃ c, HkCut s ls c ∧ wRun s.w (hkSeen c s.w.n s.w.calls.length j ls) = some s'.w ∧
      s'.unlogged = s.unlogged ++ entriesIn ((given ls).drop c) ∧ s'.reports = s.reports ++ reportsIn ((given ls).drop c) := by
  induction ls with
  | nil => intro s s' j h _ _; cases h; exact ⟨0, hkCut_nil s, rfl, by simp [given, entriesIn], by simp [given, reportsIn]⟩
  | cons l ls ih =>
    intro s s' j h hub hj
    obtain ⟨v, hv, hr⟩ := Option.bind_eq_some_iff.1 h
    have ht := (hk_tr hv).2
    have hubv := hk_noub hr hub
    -- the tail seen with the right counts
    have tail : ∀ (l' : WLabel M) (j' : Nat), wStep s.w l' = some v.w → (∀ k, v.pc.waitsFor = some k → k = j') →
        ∃ c, HkCut v ls c ∧ wRun s.w (l' :: hkSeen c (s.w.n + sinksIn l') (s.w.calls.length + callsIn l') j' ls) = some s'.w ∧
          s'.unlogged = v.unlogged ++ entriesIn ((given ls).drop c) ∧ s'.reports = v.reports ++ reportsIn ((given ls).drop c) := by
      intro l' j' hl' hj'
      obtain ⟨c, hc, hw, hu, hp⟩ := ih j' hr hub hj'
      refine ⟨c, hc, ?_, hu, hp⟩
      show (wStep s.w l').bind _ = _
      rw [hl']
      have h1 : v.w.calls.length = s.w.calls.length + callsIn l' := by
        rcases (step_frame hl').2.2.2 with hub | hlen
        · rw [hubv] at hub; cases hub
        · exact hlen
      have h2 : v.w.n = s.w.n + sinksIn l' := by
        rcases step_n hl' with hub | hlen
        · rw [hubv] at hub; cases hub
        · exact hlen
      rw [← h1, ← h2]; exact hw
    have same : ∀ (j' : Nat), v.w = s.w → (∀ k, v.pc.waitsFor = some k → k = j') →
        ∃ c, HkCut v ls c ∧ wRun s.w (hkSeen c s.w.n s.w.calls.length j' ls) = some s'.w ∧
          s'.unlogged = v.unlogged ++ entriesIn ((given ls).drop c) ∧ s'.reports = v.reports ++ reportsIn ((given ls).drop c) := by
      intro j' e hj'
      obtain ⟨c, hc, hw, hu, hp⟩ := ih j' hr hub hj'
      rw [e] at hw
      exact ⟨c, hc, hw, hu, hp⟩
    have off : ∀ {c}, HkCut v ls c → s.active = false → c + 0 = 0 := fun hc ha => hkCut_off hc (hk_off ht ha)
    have inside : ∀ {m : M} {r : List (HkAct M)} {j' : Nat}, ∀ k, (HkPc.inside m r).waitsFor = some k → k = j' := fun _ e => by cases e
    cases ht with
    | @base l w hk hs =>
      obtain ⟨c, hc, hw, hu⟩ := tail l j hs hj
      exact ⟨c, hkCut_cons hv hc rfl (off hc), by cases c <;> exact hw, hu⟩
    | @logged m w ha hs =>
      obtain ⟨c, hc, hw, hu⟩ := tail (.save m) j hs hj
      exact ⟨c + 1, hkCut_cons (d := 1) hv hc rfl (fun e => by rw [ha] at e; cases e), hw, hu⟩
    | @lost m ha =>
      obtain ⟨c, hc, hw, hu, hp⟩ := same j rfl hj
      have hn : c = 0 := hkCut_off hc ha
      subst hn
      exact ⟨0, hkCut_lost hv ha, hw, by rw [hu]; simp [given, entriesIn], by rw [hp]; simp [given, reportsIn]⟩
    | @crash m r hp =>
      obtain ⟨c, hc, hw, hu⟩ := same j rfl inside
      exact ⟨c, hkCut_cons hv hc rfl (off hc), by cases c <;> exact hw, hu⟩
    | @actLogged x m r w hp ha hs =>
      obtain ⟨c, hc, hw, hu⟩ := tail (.save x) j hs inside
      exact ⟨c + 1, hkCut_cons (d := 1) hv hc rfl (fun e => by rw [ha] at e; cases e), hw, hu⟩
    | @actLost x m r hp ha =>
      obtain ⟨c, hc, hw, hu, hp⟩ := same j rfl inside
      have hn : c = 0 := hkCut_off hc ha
      subst hn
      exact ⟨0, hkCut_lost hv ha, hw, by rw [hu]; simp [given, entriesIn], by rw [hp]; simp [given, reportsIn]⟩
    | @actSync c' m r w hp hcan hs =>
      obtain ⟨c, hc, hw, hu⟩ := tail c'.label s.w.calls.length hs (fun k e => by cases e; rfl)
      refine ⟨c, hkCut_cons hv hc rfl (off hc), ?_, hu⟩
      cases c' with
      | add => cases c <;> exact hw
      | clear => cases c <;> exact hw
      | remove i =>
        have : i < s.w.n := by simpa [hkCan] using hcan
        cases c <;> (simp only [hkSeen, if_pos this]; exact hw)
    | @actSkip c' m r hp hcan =>
      obtain ⟨c, hc, hw, hu⟩ := same j rfl inside
      refine ⟨c, hkCut_cons hv hc rfl (off hc), ?_, hu⟩
      cases c' with
      | add => cases hcan
      | clear => cases hcan
      | remove i =>
        have : ¬ i < s.w.n := by simpa [hkCan] using hcan
        cases c <;> (simp only [hkSeen, if_neg this]; exact hw)
    | @actShut m r hp =>
      obtain ⟨c, hc, hw, hu⟩ := same j rfl inside
      exact ⟨c, hkCut_cons hv hc rfl (off hc), by cases c <;> exact hw, hu⟩
    | @actDestroy m r w hp hph hs =>
      obtain ⟨c, hc, hw, hu⟩ := tail .dtor j hs (fun k e => by cases e)
      exact ⟨c, hkCut_cons hv hc rfl (off hc), by cases c <;> exact hw, hu⟩
    | actTwice => cases hubv
    | @back k m r w hp hs =>
      have : k = j := hj k (by rw [hp]; rfl)
      subst this
      obtain ⟨c, hc, hw, hu⟩ := tail (.ret k) k hs inside
      exact ⟨c, hkCut_cons hv hc rfl (off hc), by cases c <;> exact hw, hu⟩
    | @gone m r hp hph =>
      obtain ⟨c, hc, hw, hu⟩ := same j rfl inside
      exact ⟨c, hkCut_cons hv hc rfl (off hc), by cases c <;> exact hw, hu⟩
    | @report m w hp ha hs =>
      obtain ⟨c, hc, hw, hu⟩ := tail (.fatal m) j hs (fun k e => by cases e)
      exact ⟨c + 1, hkCut_cons (d := 1) hv hc rfl (fun e => by rw [ha] at e; cases e), hw, hu⟩
    | @cry m hp ha =>
      obtain ⟨c, hc, hw, hu, hp⟩ := same j rfl (fun k e => by cases e)
      have hn : c = 0 := hkCut_off hc ha
      subst hn
      exact ⟨0, hkCut_lost hv ha, hw, by rw [hu]; simp [given, entriesIn], by rw [hp]; simp [given, reportsIn]⟩

/-- C112: for the worker, the hook is a client like others. Every run is one of the worker on its own (Model/Worker), in which the first `c` entries and reports are handed to it, in order, and the others are not; `c` is the number of them given while
logging was active. The report is given after everything the hook does. -/
theorem C112_requests {ls : List (HkLabel M)} {s : HkState M} (h : hkRun .start ls = some s) (hu : s.w.ub = false) :
    ∃ c, HkCut .start ls c ∧ wRun .start (hkSeen c 0 0 0 ls) = some s.w ∧ s.unlogged = entriesIn ((given ls).drop c) ∧ s.reports = reportsIn ((given ls).drop c) := by
  obtain ⟨c, hc, hw, h1, h2⟩ := hk_requests ls 0 h hu nofun
  exact ⟨c, hc, hw, by simpa [HkState.start] using h1, by simpa [HkState.start] using h2⟩

/-! ### The hook runs once, completely, in order -/

theorem hk_inv {ls : List (HkLabel M)} {s : HkState M} (h : hkRun .start ls = some s) (hu : s.w.ub = false) : AllInv s.w := by
  obtain ⟨c, _, hw, _⟩ := C112_requests h hu
  exact allInv_run hw

omit [DecidableEq M] in
theorem hookDoes_append (a b : List (HkLabel M)) : hookDoes (a ++ b) = hookDoes a ++ hookDoes b := by
  induction a with
  | nil => rfl
  | cons l a ih => cases l <;> simp [hookDoes, ih]

/-- The part of the hook that is done, and the part that is left. -/
def HookAt (ls : List (HkLabel M)) : HkPc M → Prop
  | .calm => ∀ l ∈ ls, isCrash l = false ∧ (∀ a, l ≠ .act a) ∧ ∀ m, l ≠ .finish m
  | .inside m r => ∃ a b x, ls = a ++ .crash m x :: b ∧ (∀ l ∈ a ++ b, isCrash l = false ∧ ∀ m, l ≠ .finish m) ∧ hookDoes a = [] ∧ hookDoes b ++ r = x
  | .waiting _ m r => ∃ a b x, ls = a ++ .crash m x :: b ∧ (∀ l ∈ a ++ b, isCrash l = false ∧ ∀ m, l ≠ .finish m) ∧ hookDoes a = [] ∧ hookDoes b ++ r = x
  | .destroying m r => ∃ a b x, ls = a ++ .crash m x :: b ∧ (∀ l ∈ a ++ b, isCrash l = false ∧ ∀ m, l ≠ .finish m) ∧ hookDoes a = [] ∧ hookDoes b ++ r = x
  | _ => ∃ a b m x c, ls = a ++ .crash m x :: b ++ .finish m :: c ∧ (∀ l ∈ a ++ b ++ c, isCrash l = false ∧ ∀ m, l ≠ .finish m) ∧ hookDoes a = [] ∧ hookDoes b = x ∧ hookDoes c = []

omit [DecidableEq M] in
theorem hookAt_other {ls : List (HkLabel M)} {pc : HkPc M} {l : HkLabel M} (h : HookAt ls pc) (h1 : isCrash l = false) (h2 : ∀ a, l ≠ .act a) (h3 : ∀ m, l ≠ .finish m) :
    HookAt (ls ++ [l]) pc := by
  have e : hookDoes [l] = [] := by cases l <;> first | rfl | exact absurd rfl (h2 _)
  have mid : ∀ {m : M} {r : List (HkAct M)}, (∃ a b x, ls = a ++ .crash m x :: b ∧ (∀ l ∈ a ++ b, isCrash l = false ∧ ∀ m, l ≠ .finish m) ∧ hookDoes a = [] ∧ hookDoes b ++ r = x) →
      ∃ a b x, ls ++ [l] = a ++ .crash m x :: b ∧ (∀ l ∈ a ++ b, isCrash l = false ∧ ∀ m, l ≠ .finish m) ∧ hookDoes a = [] ∧ hookDoes b ++ r = x := by
    rintro m r ⟨a, b, x, rfl, hn, ha, hb⟩
    refine ⟨a, b ++ [l], x, by simp, fun y hy => ?_, ha, by rw [hookDoes_append, e]; simpa using hb⟩
    rw [← List.append_assoc] at hy
    rcases List.mem_append.1 hy with hy | hy
    · exact hn y hy
    · rw [List.mem_singleton.1 hy]; exact ⟨h1, h3⟩
  have fin : (∃ a b m x c, ls = a ++ .crash m x :: b ++ .finish m :: c ∧ (∀ l ∈ a ++ b ++ c, isCrash l = false ∧ ∀ m, l ≠ .finish m) ∧ hookDoes a = [] ∧ hookDoes b = x ∧ hookDoes c = []) →
      ∃ a b m x c, ls ++ [l] = a ++ .crash m x :: b ++ .finish m :: c ∧ (∀ l ∈ a ++ b ++ c, isCrash l = false ∧ ∀ m, l ≠ .finish m) ∧ hookDoes a = [] ∧ hookDoes b = x ∧ hookDoes c = [] := by
    rintro ⟨a, b, m, x, c, rfl, hn, ha, hb, hc⟩
    refine ⟨a, b, m, x, c ++ [l], by simp, fun y hy => ?_, ha, hb, by rw [hookDoes_append, e, hc]; rfl⟩
    rw [← List.append_assoc] at hy
    rcases List.mem_append.1 hy with hy | hy
    · exact hn y hy
    · rw [List.mem_singleton.1 hy]; exact ⟨h1, h3⟩
  cases pc with
  | calm =>
    intro y hy
    rcases List.mem_append.1 hy with hy | hy
    · exact h y hy
    · rw [List.mem_singleton.1 hy]; exact ⟨h1, h2, h3⟩
  | inside | waiting | destroying => exact mid h
  | asleep | over => exact fin h

omit [DecidableEq M] in
theorem hookAt_act {ls : List (HkLabel M)} {m : M} {a : HkAct M} {r : List (HkAct M)} (h : HookAt ls (.inside m (a :: r))) : HookAt (ls ++ [.act a]) (.inside m r) := by
  obtain ⟨p, q, x, rfl, hn, ha, hb⟩ := h
  refine ⟨p, q ++ [.act a], x, by simp, fun y hy => ?_, ha, by rw [hookDoes_append]; simpa [hookDoes] using hb⟩
  rw [← List.append_assoc] at hy
  rcases List.mem_append.1 hy with hy | hy
  · exact hn y hy
  · rw [List.mem_singleton.1 hy]; exact ⟨rfl, nofun⟩

omit [DecidableEq M] in
theorem hookAt_finish {ls : List (HkLabel M)} {m : M} (h : HookAt ls (.inside m [])) :
    ∃ a b m' x c, ls ++ [.finish m] = a ++ .crash m' x :: b ++ .finish m' :: c ∧ (∀ l ∈ a ++ b ++ c, isCrash l = false ∧ ∀ m, l ≠ .finish m) ∧ hookDoes a = [] ∧ hookDoes b = x ∧ hookDoes c = [] := by
  obtain ⟨p, q, x, rfl, hn, ha, hb⟩ := h
  exact ⟨p, q, m, x, [], by simp, by simpa using hn, ha, by simpa using hb, rfl⟩

omit [DecidableEq M] in
theorem hookAt_step {ls : List (HkLabel M)} {s s' : HkState M} {l : HkLabel M} (ht : HkTr s l s') (hu : s'.w.ub = false) (h : HookAt ls s.pc) : HookAt (ls ++ [l]) s'.pc := by
  cases ht with
  | base | logged | lost => exact hookAt_other h rfl nofun nofun
  | @crash m r hp =>
    rw [hp] at h
    refine ⟨ls, [], r, rfl, ?_, ?_, rfl⟩
    · intro y hy; rw [List.append_nil] at hy; exact ⟨(h y hy).1, (h y hy).2.2⟩
    · clear hu
      have h : ∀ l ∈ ls, isCrash l = false ∧ (∀ a, l ≠ .act a) ∧ ∀ m, l ≠ .finish m := h
      induction ls with
      | nil => rfl
      | cons x ls ih =>
        have := ih (fun y hy => h y (List.mem_cons_of_mem _ hy)) (fun y hy => h y (List.mem_cons_of_mem _ hy))
        cases x with
        | act a => exact absurd rfl ((h _ (List.mem_cons_self ..)).2.1 a)
        | _ => exact this
  | actLogged hp | actLost hp | actSkip hp | actShut hp => rw [hp] at h; exact hookAt_act h
  | actSync hp => rw [hp] at h; exact (show HookAt (ls ++ _) (.inside _ _) from hookAt_act h)
  | actDestroy hp => rw [hp] at h; exact (show HookAt (ls ++ _) (.inside _ _) from hookAt_act h)
  | actTwice => cases hu
  | back hp => rw [hp] at h; exact hookAt_other (pc := .inside _ _) h rfl nofun nofun
  | gone hp => rw [hp] at h; exact hookAt_other (pc := .inside _ _) h rfl nofun nofun
  | report hp => rw [hp] at h; exact hookAt_finish h
  | cry hp => rw [hp] at h; exact hookAt_finish h

theorem hookAt_run {ls : List (HkLabel M)} {s : HkState M} (h : hkRun .start ls = some s) (hu : s.w.ub = false) : HookAt ls s.pc := by
  have gen : ∀ (post pre : List (HkLabel M)) {u s : HkState M}, HookAt pre u.pc → hkRun u post = some s → s.w.ub = false → HookAt (pre ++ post) s.pc := by
    intro post
    induction post with
    | nil => intro pre u s hp h _; cases h; simpa using hp
    | cons l post ih =>
      intro pre u s hp h hu
      obtain ⟨v, hv, hr⟩ := Option.bind_eq_some_iff.1 h
      have := ih (pre ++ [l]) (hookAt_step (hk_tr hv).2 (hk_noub hr hu) hp) hr hu
      simpa using this
  exact gen ls [] (u := .start) (fun l hl => by cases hl) h hu

/-- C112: at most one report is made with the hook. When it is made the hook has done everything it was to do, once and in order, between the event and the report. -/
theorem C112_once {ls : List (HkLabel M)} {s : HkState M} (h : hkRun .start ls = some s) (hu : s.w.ub = false) {m : M} (hm : .finish m ∈ ls) :
    ∃ a b c x, ls = a ++ .crash m x :: b ++ .finish m :: c ∧ (∀ l ∈ a ++ b ++ c, isCrash l = false ∧ ∀ m, l ≠ .finish m) ∧ hookDoes a = [] ∧ hookDoes b = x ∧ hookDoes c = [] := by
  have hat := hookAt_run h hu
  have mid : ∀ (m' : M) (r : List (HkAct M)), ¬ ∃ a b x, ls = a ++ .crash m' x :: b ∧ (∀ l ∈ a ++ b, isCrash l = false ∧ ∀ m, l ≠ .finish m) ∧ hookDoes a = [] ∧ hookDoes b ++ r = x := by
    rintro m' r ⟨a, b, x, rfl, hn, _⟩
    rcases List.mem_append.1 hm with hm | hm
    · exact (hn _ (List.mem_append_left _ hm)).2 m rfl
    · rcases List.mem_cons.1 hm with hm | hm
      · cases hm
      · exact (hn _ (List.mem_append_right _ hm)).2 m rfl
  have fin : (∃ a b m x c, ls = a ++ .crash m x :: b ++ .finish m :: c ∧ (∀ l ∈ a ++ b ++ c, isCrash l = false ∧ ∀ m, l ≠ .finish m) ∧ hookDoes a = [] ∧ hookDoes b = x ∧ hookDoes c = []) →
      ∃ a b c x, ls = a ++ .crash m x :: b ++ .finish m :: c ∧ (∀ l ∈ a ++ b ++ c, isCrash l = false ∧ ∀ m, l ≠ .finish m) ∧ hookDoes a = [] ∧ hookDoes b = x ∧ hookDoes c = [] := by
    rintro ⟨a, b, m', x, c, rfl, hn, h1, h2, h3⟩
    have : m = m' := by
      simp only [List.mem_append, List.mem_cons] at hm hn
      rcases hm with (hm | hm | hm) | hm | hm
      · exact absurd rfl ((hn _ (Or.inl (Or.inl hm))).2 m)
      · cases hm
      · exact absurd rfl ((hn _ (Or.inl (Or.inr hm))).2 m)
      · cases hm; rfl
      · exact absurd rfl ((hn _ (Or.inr hm)).2 m)
    subst this
    exact ⟨a, b, c, x, rfl, hn, h1, h2, h3⟩
  cases hp : s.pc with
  | calm => rw [hp] at hat; exact absurd rfl ((hat _ hm).2.2 m)
  | inside | waiting | destroying => rw [hp] at hat; exact absurd hat (mid _ _)
  | asleep | over => rw [hp] at hat; exact fin hat

omit [DecidableEq M] in
theorem ret_returned {s s' : WState M} {k : Nat} (h : wStep s (.ret k) = some s') : ∃ d, s'.calls[k]? = some d ∧ d.returned = true := by
  unfold wStep at h
  split at h
  · cases h
  simp only [retStep] at h
  split at h
  · cases h
  · rename_i c hc
    have hlt := (List.getElem?_eq_some_iff.1 hc).1
    have key : (s.calls.set k { c with returned := true })[k]? = some { c with returned := true } := by
      rw [List.getElem?_set_self hlt]
    split at h
    · split at h
      · cases h
        unfold clientDrop
        split <;> exact ⟨_, key, rfl⟩
      · cases h; exact ⟨_, key, rfl⟩
    · cases h

omit [DecidableEq M] in
theorem returned_phase {s s' : WState M} {l : WLabel M} (h : wStep s l = some s') (hp : s.phase = .returned) : s'.phase = .returned := by
  by_cases hl : l = .dtor
  · subst hl
    unfold wStep at h
    split at h
    · cases h
    · simp only [dtorStep, hp] at h; cases h
  · rw [(step_frame h).1 hl]; exact hp

/-- C112: the hook waits for its synchronous calls: when it has gone on, the call has returned. -/
theorem C112_waits {pre post : List (HkLabel M)} {u s : HkState M} {c : DtSync} (hu : hkRun .start pre = some u) (hc : hkCan u.w c = true)
    (h : hkRun u (.act (.sync c) :: post) = some s) (hub : s.w.ub = false) (hl : ∃ l ∈ post, (∃ a, l = .act a) ∨ ∃ m, l = .finish m) :
    ∃ d, s.w.calls[u.w.calls.length]? = some d ∧ d.returned = true := by
  obtain ⟨v, hv, hr⟩ := Option.bind_eq_some_iff.1 h
  have hvw : v.pc.waitsFor = some u.w.calls.length := by
    have ht := (hk_tr hv).2
    cases ht with
    | actSync => rfl
    | actSkip _ hn => rw [hc] at hn; cases hn
  have back1 : ∀ {s s' : HkState M} {l : HkLabel M} {k : Nat}, AllInv s.w → HkTr s l s' → s'.w.ub = false → (∃ d, s.w.calls[k]? = some d ∧ d.returned = true) →
      ∃ d, s'.w.calls[k]? = some d ∧ d.returned = true := by
    rintro s s' l k hi ht hub ⟨d, hd, hr⟩
    have w1 : ∀ {x : WLabel M} {w : WState M}, wStep s.w x = some w → ∃ d, w.calls[k]? = some d ∧ d.returned = true := by
      intro x w hx
      obtain ⟨b, hb, hbr⟩ := (grows_tr (tr_of_step hx).2.2 hi.w.sinks).calls k d hd
      exact ⟨_, hb, hbr hr⟩
    cases ht with
    | base _ hs | logged _ hs | actLogged _ _ hs | actSync _ _ hs | actDestroy _ _ hs | back _ hs | report _ _ hs => exact w1 hs
    | actTwice => cases hub
    | lost | crash | actLost | actSkip | actShut | gone | cry => exact ⟨d, hd, hr⟩
  have gen : ∀ (post pre : List (HkLabel M)) {x s : HkState M} {k : Nat}, hkRun .start pre = some x → hkRun x post = some s → s.w.ub = false →
      (x.pc.waitsFor = some k ∧ (∃ l ∈ post, (∃ a, l = .act a) ∨ ∃ m, l = .finish m)) ∨ (∃ d, x.w.calls[k]? = some d ∧ d.returned = true) →
      ∃ d, s.w.calls[k]? = some d ∧ d.returned = true := by
    intro post
    induction post with
    | nil =>
      rintro pre x s k _ h _ (⟨_, l, hl, _⟩ | hd)
      · cases hl
      · cases h; exact hd
    | cons l post ih =>
      intro pre x s k hx h hub hor
      obtain ⟨y, hy, hr⟩ := Option.bind_eq_some_iff.1 h
      have hyub := hk_noub hr hub
      have hi := hk_inv hx (hk_tr hy).1.1
      refine ih (pre ++ [l]) (hk_append' hx (by show (hkStep x l).bind _ = _; rw [hy]; rfl)) hr hub ?_
      rcases hor with ⟨hw, z, hz, hzz⟩ | hd
      · have rest : l ≠ .back → (∀ a, l ≠ .act a) → (∀ m, l ≠ .finish m) → y.pc = x.pc →
            (y.pc.waitsFor = some k ∧ (∃ l ∈ post, (∃ a, l = .act a) ∨ ∃ m, l = .finish m)) ∨ (∃ d, y.w.calls[k]? = some d ∧ d.returned = true) := by
          intro _ h2 h3 e
          refine Or.inl ⟨by rw [e]; exact hw, ?_⟩
          rcases List.mem_cons.1 hz with rfl | hz
          · rcases hzz with ⟨a, rfl⟩ | ⟨m, rfl⟩
            · exact absurd rfl (h2 a)
            · exact absurd rfl (h3 m)
          · exact ⟨z, hz, hzz⟩
        have no : ∀ {pc : HkPc M}, x.pc = pc → pc.waitsFor ≠ some k → False := fun e hn => hn (by rw [← e]; exact hw)
        have ht := (hk_tr hy).2
        cases ht with
        | base | logged | lost => exact rest nofun nofun nofun rfl
        | @back k' m r w hp hs =>
          rw [hp] at hw; cases hw
          exact Or.inr (ret_returned hs)
        | crash hp | actLogged hp | actLost hp | actSync hp | actSkip hp | actShut hp | actDestroy hp | actTwice hp | gone hp | report hp | cry hp => exact (no hp nofun).elim
      · exact Or.inr (back1 hi (hk_tr hy).2 hyub hd)
  exact gen post (pre ++ [.act (.sync c)]) (hk_append' hu (by show (hkStep u _).bind _ = _; rw [hv]; rfl)) hr hub (Or.inl ⟨hvw, hl⟩)

/-- C112: and for the destructor of the worker: when it has gone on, the worker is gone. -/
theorem C112_destroyed {pre post : List (HkLabel M)} {u s : HkState M} (hu : hkRun .start pre = some u)
    (h : hkRun u (.act .destroy :: post) = some s) (hub : s.w.ub = false) (hl : ∃ l ∈ post, (∃ a, l = .act a) ∨ ∃ m, l = .finish m) : s.w.phase = .returned := by
  obtain ⟨v, hv, hr⟩ := Option.bind_eq_some_iff.1 h
  have hvub := hk_noub hr hub
  have hvw : ∃ m r, v.pc = .destroying m r := by
    have ht := (hk_tr hv).2
    cases ht with
    | actDestroy => exact ⟨_, _, rfl⟩
    | actTwice => cases hvub
  have gen : ∀ (post : List (HkLabel M)) {x s : HkState M}, hkRun x post = some s → s.w.ub = false →
      ((∃ m r, x.pc = .destroying m r) ∧ (∃ l ∈ post, (∃ a, l = .act a) ∨ ∃ m, l = .finish m)) ∨ x.w.phase = .returned → s.w.phase = .returned := by
    intro post
    induction post with
    | nil =>
      rintro x s h _ (⟨_, l, hl, _⟩ | hd)
      · cases hl
      · cases h; exact hd
    | cons l post ih =>
      intro x s h hub hor
      obtain ⟨y, hy, hr⟩ := Option.bind_eq_some_iff.1 h
      have hyub := hk_noub hr hub
      refine ih hr hub ?_
      have ht := (hk_tr hy).2
      rcases hor with ⟨⟨m0, r0, hw⟩, z, hz, hzz⟩ | hd
      · have rest : (∀ a, l ≠ .act a) → (∀ m, l ≠ .finish m) → y.pc = x.pc →
            ((∃ m r, y.pc = .destroying m r) ∧ (∃ l ∈ post, (∃ a, l = .act a) ∨ ∃ m, l = .finish m)) ∨ y.w.phase = .returned := by
          intro h2 h3 e
          refine Or.inl ⟨⟨m0, r0, e.trans hw⟩, ?_⟩
          rcases List.mem_cons.1 hz with rfl | hz
          · rcases hzz with ⟨a, rfl⟩ | ⟨m, rfl⟩
            · exact absurd rfl (h2 a)
            · exact absurd rfl (h3 m)
          · exact ⟨z, hz, hzz⟩
        have no : ∀ {pc : HkPc M}, x.pc = pc → pc ≠ .destroying m0 r0 → False := fun e hn => hn (by rw [← e]; exact hw)
        cases ht with
        | base | logged | lost => exact rest nofun nofun rfl
        | gone hp hph => exact Or.inr hph
        | crash hp | actLogged hp | actLost hp | actSync hp | actSkip hp | actShut hp | actDestroy hp | actTwice hp | back hp | report hp | cry hp => exact (no hp nofun).elim
      · refine Or.inr ?_
        cases ht with
        | base _ hs | logged _ hs | actLogged _ _ hs | actSync _ _ hs | actDestroy _ _ hs | back _ hs | report _ _ hs => exact returned_phase hs hd
        | actTwice => cases hyub
        | lost | crash | actLost | actSkip | actShut | gone | cry => exact hd
  exact gen post hr hub (Or.inl ⟨hvw, hl⟩)

/-! ### What a hook finds when nothing can go on -/

/-- What is known about the thread of the event. -/
def PcOk (s : HkState M) : Prop :=
  match s.pc with
  | .waiting k _ _ => ∃ d, s.w.calls[k]? = some d ∧ d.returned = false
  | .destroying _ _ => s.w.phase ≠ .notStarted
  | .asleep => FatalIn s.w
  | _ => True

omit [DecidableEq M] in
theorem started_phase {s s' : WState M} {l : WLabel M} (h : wStep s l = some s') (hp : s.phase ≠ .notStarted) : s'.phase ≠ .notStarted := by
  by_cases hl : l = .dtor
  · exact (step_frame h).2.2.1 hl
  · rw [(step_frame h).1 hl]; exact hp

omit [DecidableEq M] in
theorem fatalIn_w {s s' : WState M} {l : WLabel M} (hi : AllInv s) (h : wStep s l = some s') (hf : FatalIn s) : FatalIn s' := by
  obtain ⟨t, ht, _⟩ := (grows_tr (tr_of_step h).2.2 hi.w.sinks).sub
  obtain ⟨m, hm⟩ := hf
  exact ⟨m, by rw [ht]; exact List.mem_append_left _ hm⟩

omit [DecidableEq M] in
theorem pcOk_w {s : HkState M} {w : WState M} {l : WLabel M} {a : Bool} (hi : AllInv s.w) (h : wStep s.w l = some w) (hl : ∀ k, s.pc.waitsFor = some k → l ≠ .ret k) (hp : PcOk s) :
    PcOk { s with w := w, active := a } := by
  unfold PcOk at hp ⊢
  cases hc : s.pc with
  | waiting k m r =>
    rw [hc] at hp
    simp only at hp ⊢
    obtain ⟨d, hd, hr⟩ := hp
    exact ⟨d, call_kept h (hl k (by rw [hc]; rfl)) hd, hr⟩
  | destroying m r => rw [hc] at hp; exact started_phase h hp
  | asleep => rw [hc] at hp; exact fatalIn_w hi h hp
  | calm => trivial
  | inside m r => trivial
  | over => trivial

omit [DecidableEq M] in
theorem sync_call {u w : WState M} {c : DtSync} (hs : wStep u (DtSync.label c) = some w) (hu : w.ub = false) :
    ∃ d, w.calls[u.calls.length]? = some d ∧ d.returned = false := by
  have key : ∀ (s : WState M) (k : WKind) (t : WTask M), (beginCall s k t).ub = false → ∃ d, (beginCall s k t).calls[s.calls.length]? = some d ∧ d.returned = false := by
    intro s k t hb
    unfold beginCall at hb ⊢
    split
    · rename_i h; rw [if_pos h] at hb; cases hb
    · split <;> exact ⟨_, by simp; rfl, rfl⟩
  unfold wStep at hs
  split at hs
  · cases hs
  cases c with
  | add =>
    simp only [DtSync.label, addStep, Option.some.injEq] at hs
    split at hs
    · subst hs; cases hu
    · subst hs; exact key { u with n := u.n + 1, sk := updSink u.sk u.n (fun _ => .fresh) } _ _ hu
  | remove j =>
    simp only [DtSync.label] at hs
    split at hs <;> cases hs
    exact key _ _ _ hu
  | clear =>
    simp only [DtSync.label, Option.some.injEq] at hs; subst hs
    exact key _ _ _ hu

omit [DecidableEq M] in
theorem pcOk_step {s s' : HkState M} {l : HkLabel M} (hi : AllInv s.w) (h : HkTr s l s') (hu : s'.w.ub = false) (hp : PcOk s) : PcOk s' := by
  cases h with
  | @base l w hk hb =>
    exact pcOk_w hi hb (fun k hk' e => by subst e; simp [hkOk, hk'] at hk) hp
  | @logged m w ha hb => exact pcOk_w (a := s.active) hi hb (fun _ _ => nofun) hp
  | lost => exact hp
  | crash => trivial
  | actLogged => trivial
  | actLost => trivial
  | actSync _ _ hb => exact sync_call hb hu
  | actSkip => trivial
  | actShut => trivial
  | actDestroy _ _ hb => exact (step_frame hb).2.2.1 rfl
  | actTwice => cases hu
  | back => trivial
  | gone => trivial
  | @report m w _ _ hb =>
    show FatalIn w
    unfold wStep at hb
    split at hb
    · cases hb
    · simp only at hb
      split at hb
      · cases hb; cases hu
      · cases hb; exact ⟨m, by simp [pushTask]⟩
  | cry => trivial

/-- Induction over the states reached, for runs without undefined behaviour. -/
theorem hk_reach {P : HkState M → Prop} {Q : HkLabel M → Prop} (h0 : P .start)
    (hstep : ∀ s l s', AllInv s.w → P s → Q l → HkTr s l s' → s'.w.ub = false → P s') {ls : List (HkLabel M)} {s : HkState M}
    (h : hkRun .start ls = some s) (hu : s.w.ub = false) (hq : ∀ l ∈ ls, Q l) : P s := by
  have gen : ∀ (post pre : List (HkLabel M)) {u s : HkState M}, hkRun .start pre = some u → hkRun u post = some s → s.w.ub = false → (∀ l ∈ post, Q l) → P u → P s := by
    intro post
    induction post with
    | nil => intro pre u s _ h _ _ hp; cases h; exact hp
    | cons l post ih =>
      intro pre u s hpre h hu hq hp
      obtain ⟨v, hv, hr⟩ := Option.bind_eq_some_iff.1 h
      have hub := hk_noub hr hu
      refine ih (pre ++ [l]) (hk_append' hpre (by show (hkStep u l).bind _ = _; rw [hv]; rfl)) hr hu (fun x hx => hq x (List.mem_cons_of_mem _ hx)) ?_
      exact hstep u l v (hk_inv hpre (hk_tr hv).1.1) hp (hq l (List.mem_cons_self ..)) (hk_tr hv).2 hub
  exact gen ls [] rfl h hu hq h0

theorem pcOk_run {ls : List (HkLabel M)} {s : HkState M} (h : hkRun .start ls = some s) (hu : s.w.ub = false) : PcOk s :=
  hk_reach (P := PcOk) (Q := fun _ => True) trivial (fun _ _ _ hi hp _ ht hu => pcOk_step hi ht hu hp) h hu (fun _ _ => trivial)

/-- After the event the thread is not calm again. -/
theorem crashed_run {ls : List (HkLabel M)} {s : HkState M} (h : hkRun .start ls = some s) (hc : ∃ l ∈ ls, isCrash l = true) : s.pc ≠ .calm := by
  have step : ∀ (s : HkState M) (l : HkLabel M) (s' : HkState M), s.pc ≠ .calm → HkTr s l s' → s'.pc ≠ .calm := by
    intro s l s' hp ht
    cases ht <;> first | exact hp | nofun
  have gen : ∀ (ls : List (HkLabel M)) {s s' : HkState M}, hkRun s ls = some s' → (∃ l ∈ ls, isCrash l = true) → s'.pc ≠ .calm := by
    intro ls
    induction ls with
    | nil => rintro s s' _ ⟨_, hx, _⟩; cases hx
    | cons l ls ih =>
      intro s s' h ⟨x, hx, hxc⟩
      obtain ⟨v, hv, hr⟩ := Option.bind_eq_some_iff.1 h
      rcases List.mem_cons.1 hx with rfl | hx
      · refine hk_induct (P := fun s => s.pc ≠ .calm) (fun s l s' => step s l s') ls ?_ hr
        cases x with
        | crash m r =>
          match v, (hk_tr hv).2 with
          | _, .crash _ => nofun
        | _ => cases hxc
      · exact ih hr ⟨x, hx, hxc⟩
  exact gen ls h hc

/-- Nothing can go on without new input. -/
def hkStuck (s : HkState M) : Prop := ∀ l, hkOwn s.w l → hkStep s l = none

omit [DecidableEq M] in
theorem own_internal {s : WState M} {l : WLabel M} : internal s l ↔ ownStep s (.base l) := by
  cases l <;> exact Iff.rfl

/-- C112: when nothing can go on without new input, after an event on the thread of a client with no sink thread asleep, the process has ended: the worker has ended it, or the thread of the event has. Whatever the hook did: it cannot hang. -/
theorem C112_ends {ls : List (HkLabel M)} {t : HkState M} (h : hkRun .start ls = some t) (hc : ∃ l ∈ ls, isCrash l = true) (hu : t.w.ub = false)
    (hb : ∀ i, (t.w.sk i).blocked = false) (hst : hkStuck t) : t.w.wpc = .dead ∨ t.pc = .over := by
  rcases Classical.em (t.w.wpc = .dead) with hd | hnd
  · exact Or.inl hd
  rcases Classical.em (t.pc = .over) with ho | hno
  · exact Or.inr ho
  exfalso
  have hi := hk_inv h hu
  have hok := pcOk_run h hu
  have hcalm := crashed_run h hc
  have hov : t.pc.isOver = false := by cases hp : t.pc <;> first | rfl | exact absurd hp hno
  have guard : (t.w.ub || t.w.wpc.isDead || t.pc.isOver) = false := by rw [hu, isDead_of hnd, hov]; rfl
  have open1 : ∀ l, hkStep t l = none → (match l with
    | .base l => if hkOk t l then (wStep t.w l).map fun w => { t with w := w, active := hkActive t l } else none
    | .log m => hkLog t m
    | .crash m r => if t.pc.isCalm then some { t with pc := .inside m r } else none
    | .act a => match t.pc with
      | .inside m (b :: r) => if a = b then hkAct t m r a else none
      | _ => none
    | .back => match t.pc with
      | .waiting k m r => (wStep t.w (.ret k)).map fun w => { t with w := w, pc := .inside m r }
      | _ => none
    | .gone => match t.pc with
      | .destroying m r => if t.w.phase = .returned then some { t with pc := .inside m r } else none
      | _ => none
    | .finish m => match t.pc with
      | .inside m' [] => if m = m' then hkReport t m else none
      | _ => none) = none := by
    intro l hl
    unfold hkStep at hl
    rw [if_neg (by rw [guard]; nofun)] at hl
    exact hl
  have nostep : stuck t.w := by
    intro l hl
    by_cases hr : ∃ k, l = .ret k ∧ t.pc.waitsFor = some k
    · obtain ⟨k, rfl, hw⟩ := hr
      have := open1 .back (hst .back trivial)
      cases hp : t.pc with
      | waiting k' m r =>
        rw [hp] at this hw
        cases hw
        simpa using this
      | _ => rw [hp] at hw; cases hw
    · have hok' : hkOk t l = true := by
        cases l with
        | ret k => simp only [hkOk, decide_eq_true_eq]; exact fun e => hr ⟨k, rfl, e⟩
        | reap | dtor | work | sinkPop | sinkFin => rfl
        | _ => cases hl
      have := open1 (.base l) (hst (.base l) (own_internal.1 hl))
      simp only [hok', if_true, Option.map_eq_none_iff] at this
      exact this
  have hq := quiet_of_stuck hi hu hnd hb nostep
  have hg : ¬ (t.w.ub = true ∨ t.w.wpc.isDead = true) := by simp [hu, isDead_of hnd]
  unfold PcOk at hok
  cases hp : t.pc with
  | calm => exact hcalm hp
  | over => exact hno hp
  | waiting k m r =>
    rw [hp] at hok
    obtain ⟨d, hd, hr⟩ := hok
    rw [hq.calls d (List.mem_of_getElem? hd)] at hr
    cases hr
  | destroying m r =>
    rw [hp] at hok
    have := open1 .gone (hst .gone trivial)
    rw [hp] at this
    rcases hq.dtor with h1 | h1
    · exact hok h1
    · simp [h1] at this
  | asleep =>
    rw [hp] at hok
    obtain ⟨m, hm⟩ := hok
    refine fatal_pending hi hm ?_
    rcases hq.worker with ⟨a | a, b⟩
    · exact Or.inl ⟨a, b⟩
    · exact Or.inr a
  | inside m r =>
    cases r with
    | nil =>
      have := open1 (.finish m) (hst (.finish m) trivial)
      rw [hp] at this
      simp only [if_true, hkReport] at this
      split at this
      · simp only [Option.map_eq_none_iff, wStep, if_neg hg] at this
        split at this <;> cases this
      · cases this
    | cons a r =>
      have := open1 (.act a) (hst (.act a) trivial)
      rw [hp] at this
      simp only [if_true] at this
      cases a with
      | log x =>
        simp only [hkAct, hkLog] at this
        split at this
        · simp only [Option.map_eq_none_iff, wStep, if_neg hg] at this
          split at this <;> cases this
        · cases this
      | shutdown => cases this
      | sync c =>
        simp only [hkAct] at this
        split at this
        · rename_i hcan
          simp only [Option.map_eq_none_iff, wStep, if_neg hg] at this
          cases c with
          | remove j => simp only [DtSync.label, if_pos (show j < t.w.n by simpa [hkCan] using hcan)] at this; cases this
          | add => cases this
          | clear => cases this
        · cases this
      | destroy =>
        simp only [hkAct] at this
        split at this
        · rename_i hph
          simp only [Option.map_eq_none_iff, wStep, if_neg hg, dtorStep, hph] at this
          cases this
        · cases this

/-! ### It comes to that -/

/-- What the hook has still to do. -/
def hkLeft : HkPc M → Nat
  | .inside _ r => 2 * r.length + 1
  | .waiting _ _ r => 2 * r.length + 2
  | .destroying _ r => 2 * r.length + 2
  | _ => 0

omit [DecidableEq M] in
theorem left_step {s s' : HkState M} {l : HkLabel M} (hi : AllInv s.w) (h : HkTr s l s') (hu : s'.w.ub = false) (ho : hkOwn s.w l) :
    hkLeft s'.pc < hkLeft s.pc ∨ hkLeft s'.pc = hkLeft s.pc ∧ work s'.w < work s.w := by
  cases h with
  | base hk hb => exact Or.inr ⟨rfl, work_decreases hi (own_internal.2 ho) hb⟩
  | logged => cases ho
  | lost => cases ho
  | crash => cases ho
  | actLogged hp => rw [hp]; left; simp only [hkLeft, List.length_cons]; omega
  | actLost hp => rw [hp]; left; simp only [hkLeft, List.length_cons]; omega
  | actSync hp => rw [hp]; left; simp only [hkLeft, List.length_cons]; omega
  | actSkip hp => rw [hp]; left; simp only [hkLeft, List.length_cons]; omega
  | actShut hp => rw [hp]; left; simp only [hkLeft, List.length_cons]; omega
  | actDestroy hp => rw [hp]; left; simp only [hkLeft, List.length_cons]; omega
  | actTwice => cases hu
  | back hp => rw [hp]; left; simp only [hkLeft]; omega
  | gone hp => rw [hp]; left; simp only [hkLeft]; omega
  | report hp => rw [hp]; left; simp only [hkLeft]; omega
  | cry hp => rw [hp]; left; simp only [hkLeft]; omega

/-- C112: there is no endless run without new input: from every state reached, such a run comes to a state in which nothing can go on. -/
theorem C112_finite {ls : List (HkLabel M)} (f : Nat → HkState M) (h : hkRun .start ls = some (f 0)) :
    ¬ ∀ k, ∃ l, hkOwn (f k).w l ∧ hkStep (f k) l = some (f (k + 1)) := by
  have gen : ∀ (a b : Nat) (f : Nat → HkState M) (ls : List (HkLabel M)), hkLeft (f 0).pc = a → work (f 0).w = b → hkRun .start ls = some (f 0) →
      ¬ ∀ k, ∃ l, hkOwn (f k).w l ∧ hkStep (f k) l = some (f (k + 1)) := by
    intro a
    induction a using Nat.strongRecOn with
    | _ a iha =>
      intro b
      induction b using Nat.strongRecOn with
      | _ b ihb =>
        intro f ls ha hb h hall
        obtain ⟨l, ho, hs⟩ := hall 0
        obtain ⟨l1, _, hs1⟩ := hall 1
        have hi := hk_inv h (hk_tr hs).1.1
        have hnext : hkRun .start (ls ++ [l]) = some (f 1) := hk_append' h (by show (hkStep (f 0) l).bind _ = _; rw [hs]; rfl)
        have hall' : ∀ k, ∃ l, hkOwn (f (k + 1)).w l ∧ hkStep (f (k + 1)) l = some (f (k + 1 + 1)) := fun k => hall (k + 1)
        rcases left_step hi (hk_tr hs).2 (hk_tr hs1).1.1 ho with hlt | ⟨he, hlt⟩
        · exact iha _ (by rw [← ha]; exact hlt) _ (fun k => f (k + 1)) _ rfl rfl hnext hall'
        · exact ihb _ (by rw [← hb]; exact hlt) (fun k => f (k + 1)) _ (he.trans ha) rfl hnext hall'
  exact gen _ _ f ls rfl rfl h

/-! ### Hooks that leave the library running -/

omit [DecidableEq M] in
/-- What a step hands to the worker. -/
theorem step_sub {s s' : WState M} {l : WLabel M} (h : wStep s l = some s') (h1 : l ≠ .dtor) (h2 : ∀ m, l ≠ .fatal m) (h3 : ∀ i m, l ≠ .sinkFatal i m) :
    s'.sub = s.sub ∨ ∃ x, s'.sub = s.sub ++ [x] ∧ isFinal x = false := by
  have begin1 : ∀ (s : WState M) k t, isFinal t = false → (beginCall s k t).sub = s.sub ∨ ∃ x, (beginCall s k t).sub = s.sub ++ [x] ∧ isFinal x = false := by
    intro s k t ht
    unfold beginCall
    repeat' split
    · exact Or.inl rfl
    · exact Or.inl rfl
    · exact Or.inr ⟨t, rfl, ht⟩
  have drop1 : ∀ (s : WState M) i, (clientDrop s i).sub = s.sub := by
    intro s i; unfold clientDrop; split <;> rfl
  unfold wStep at h
  split at h
  · cases h
  · cases l with
    | work =>
      simp only [workStep, takeTask] at h
      refine Or.inl ?_
      repeat' split at h
      all_goals first | (cases h; done) | (cases h; rfl)
    | save m =>
      simp only at h
      split at h <;> cases h
      · exact Or.inl rfl
      · exact Or.inr ⟨.save m, rfl, rfl⟩
    | fatal m => exact absurd rfl (h2 m)
    | add =>
      simp only [Option.some.injEq, addStep] at h
      split at h
      · subst h; exact Or.inl rfl
      · subst h; exact begin1 { s with n := s.n + 1, sk := updSink s.sk s.n (fun _ => .fresh) } _ _ rfl
    | remove i =>
      simp only at h; split at h
      · cases h; exact begin1 _ _ _ rfl
      · cases h
    | clear => simp only [Option.some.injEq] at h; subst h; exact begin1 _ _ _ rfl
    | ret k =>
      simp only [retStep] at h
      split at h
      · cases h
      · split at h
        · split at h
          · cases h; exact Or.inl (drop1 _ _)
          · cases h; exact Or.inl rfl
        · cases h
    | hold i => simp only at h; split at h <;> cases h; exact Or.inl rfl
    | holdFail i c => simp only at h; split at h <;> cases h; exact Or.inl rfl
    | call i c => simp only at h; split at h <;> cases h; exact Or.inl rfl
    | release i => simp only at h; split at h <;> cases h; exact Or.inl (drop1 _ _)
    | reap i => simp only at h; split at h <;> cases h; exact Or.inl rfl
    | dtor => exact absurd rfl h1
    | sinkPop i =>
      simp only [sinkPop] at h
      split at h
      · split at h <;> cases h; exact Or.inl rfl
      · cases h
    | sinkFin i =>
      simp only [sinkFin] at h
      split at h
      · split at h <;> cases h <;> exact Or.inl rfl
      · cases h
    | sinkFatal i m => exact absurd rfl (h3 i m)

omit [DecidableEq M] in
/-- Only a fatal event on the thread of a sink puts that thread to sleep. -/
theorem unblocked_step {s s' : WState M} {l : WLabel M} (h : wStep s l = some s') (h3 : ∀ i m, l ≠ .sinkFatal i m) (hb : ∀ i, (s.sk i).blocked = false) :
    ∀ i, (s'.sk i).blocked = false := by
  have upd : ∀ {sk : Nat → SinkSt M} {j : Nat} {f : SinkSt M → SinkSt M}, (∀ i, (sk i).blocked = false) → (∀ k : SinkSt M, k.blocked = false → (f k).blocked = false) →
      ∀ i, (updSink sk j f i).blocked = false := by
    intro sk j f h hf i
    unfold updSink; split
    · exact hf _ (h i)
    · exact h i
  have begin1 : ∀ (s : WState M) k t, (beginCall s k t).sk = s.sk := by
    intro s k t; unfold beginCall; repeat' split
    all_goals rfl
  have drop1 : ∀ (s : WState M) j, (∀ i, (s.sk i).blocked = false) → ∀ i, ((clientDrop s j).sk i).blocked = false := by
    intro s j h; unfold clientDrop; split
    · exact h
    · exact upd h (fun _ e => e)
  unfold wStep at h
  split at h
  · cases h
  · cases l with
    | work =>
      simp only [workStep, takeTask] at h
      repeat' split at h
      all_goals first | (cases h; done) | (cases h; exact hb) | (cases h; exact upd hb (fun _ e => e))
    | save m => simp only at h; split at h <;> (cases h; exact hb)
    | fatal m => simp only at h; split at h <;> (cases h; exact hb)
    | add =>
      simp only [Option.some.injEq, addStep] at h
      split at h
      · subst h; exact hb
      · subst h; rw [begin1]; exact upd hb (fun _ _ => rfl)
    | remove i =>
      simp only at h; split at h
      · cases h; rw [begin1]; exact hb
      · cases h
    | clear => simp only [Option.some.injEq] at h; subst h; rw [begin1]; exact hb
    | ret k =>
      simp only [retStep] at h
      split at h
      · cases h
      · split at h
        · split at h
          · cases h; exact drop1 _ _ hb
          · cases h; exact hb
        · cases h
    | hold i => simp only at h; split at h <;> cases h; exact upd hb (fun _ e => e)
    | holdFail i c => simp only at h; split at h <;> cases h; exact hb
    | call i c => simp only at h; split at h <;> cases h; exact upd hb (fun _ e => e)
    | release i => simp only at h; split at h <;> cases h; exact drop1 _ _ (upd hb (fun _ e => e))
    | reap i => simp only at h; split at h <;> cases h; exact upd hb (fun _ e => e)
    | dtor =>
      simp only [dtorStep] at h
      repeat' split at h
      all_goals first | (cases h; done) | (cases h; exact hb) | (cases h; exact upd hb (fun _ e => e))
    | sinkPop i =>
      simp only [sinkPop] at h
      split at h
      · split at h <;> cases h; exact upd hb (fun _ e => e)
      · cases h
    | sinkFin i =>
      simp only [sinkFin] at h
      split at h
      · split at h <;> cases h <;> exact upd hb (fun _ e => e)
      · cases h
    | sinkFatal i m => exact absurd rfl (h3 i m)

/-- The step is no fatal event on the thread of a sink. -/
def notOnSink : HkLabel M → Prop
  | .base (.sinkFatal _ _) => False
  | _ => True

theorem unblocked_run {ls : List (HkLabel M)} {s : HkState M} (h : hkRun .start ls = some s) (hu : s.w.ub = false) (hk : ∀ l ∈ ls, notOnSink l) : ∀ i, (s.w.sk i).blocked = false := by
  refine hk_reach (P := fun s => ∀ i, (s.w.sk i).blocked = false) (Q := notOnSink) (fun _ => rfl) ?_ h hu hk
  intro s l s' _ hb hq ht hu
  cases ht with
  | base _ hs => exact unblocked_step hs (fun i m e => by subst e; exact hq) hb
  | logged _ hs | actLogged _ _ hs | actDestroy _ _ hs | back _ hs | report _ _ hs => exact unblocked_step hs nofun hb
  | @actSync c _ _ _ _ _ hs => exact unblocked_step hs (by cases c <;> nofun) hb
  | actTwice => cases hu
  | lost | crash | actLost | actSkip | actShut | gone | cry => exact hb

/-- Nobody has asked the worker to stop or to end the process. -/
structure HkCalm (s : HkState M) : Prop where
  on : s.active = true
  phase : s.w.phase = .notStarted
  sub : ∀ x ∈ s.w.sub, isFinal x = false

omit [DecidableEq M] in
theorem hkCalm_w {s : HkState M} {w : WState M} {l : WLabel M} (hi : AllInv s.w) (h : HkCalm s) (hs : wStep s.w l = some w) (h1 : l ≠ .dtor) (h2 : ∀ m, l ≠ .fatal m)
    (h3 : ∀ i m, l ≠ .sinkFatal i m) (pc : HkPc M) (ul : List M) : HkCalm { s with w := w, active := hkActive s l, pc := pc, unlogged := ul } := by
  refine ⟨?_, ((step_frame hs).1 h1).trans h.phase, ?_⟩
  · have : takesFatal s.w = false := by
      have hq := hi.w.book.queue (by rw [h.phase]; rfl)
      unfold takesFatal
      split
      · rename_i m r hw hwq
        exfalso
        have hm : WTask.fatal m ∈ s.w.sub := List.mem_of_mem_drop (by rw [← hq, hwq]; exact List.mem_cons_self ..)
        have := h.sub _ hm
        cases this
      · rfl
    show hkActive s l = true
    cases l <;> first | exact h.on | exact absurd rfl h1 | simp [hkActive, h.on, this]
  · rcases step_sub hs h1 h2 h3 with e | ⟨x, e, hx⟩
    · show ∀ y ∈ w.sub, _
      rw [e]; exact h.sub
    · show ∀ y ∈ w.sub, _
      rw [e]
      intro y hy
      rcases List.mem_append.1 hy with hy | hy
      · exact h.sub y hy
      · rw [List.mem_singleton.1 hy]; exact hx

/-- While nobody stops logging, the report is handed over, after everything else. -/
theorem hkCalm_run {ls : List (HkLabel M)} {s : HkState M} (h : hkRun .start ls = some s) (hu : s.w.ub = false) (hk : ∀ l ∈ ls, keepsLogging l = true) :
    s.pc ≠ .over ∧ (s.pc ≠ .asleep → HkCalm s) := by
  refine hk_reach (P := fun s => s.pc ≠ .over ∧ (s.pc ≠ .asleep → HkCalm s)) (Q := fun l => keepsLogging l = true) ?_ ?_ h hu hk
  · exact ⟨nofun, fun _ => ⟨rfl, rfl, nofun⟩⟩
  · intro s l s' hi ⟨ho, hc⟩ hq ht hu
    have away : ∀ {pc : HkPc M}, s.pc = pc → pc ≠ .asleep → HkCalm s := fun e he => hc (by rw [e]; exact he)
    cases ht with
    | @base l w hk hb =>
      refine ⟨ho, fun ha => hkCalm_w hi (hc ha) hb ?_ ?_ ?_ s.pc s.unlogged⟩
      · rintro rfl; cases hq
      · rintro m rfl; cases hq
      · rintro i m rfl; cases hq
    | logged _ hb => exact ⟨ho, fun ha => hkCalm_w hi (hc ha) hb nofun nofun nofun s.pc s.unlogged⟩
    | lost => exact ⟨ho, fun ha => let c := hc ha; ⟨c.on, c.phase, c.sub⟩⟩
    | crash hp => exact ⟨nofun, fun _ => let c := away hp nofun; ⟨c.on, c.phase, c.sub⟩⟩
    | actLogged hp _ hb => exact ⟨nofun, fun _ => hkCalm_w hi (away hp nofun) hb nofun nofun nofun _ s.unlogged⟩
    | actLost hp ha => have := (away hp nofun).on; rw [ha] at this; cases this
    | @actSync c m r _ hp _ hb =>
      have e : hkActive s (DtSync.label c) = s.active := by cases c <;> rfl
      have := hkCalm_w hi (away hp nofun) hb (by cases c <;> nofun) (by cases c <;> nofun) (by cases c <;> nofun) (HkPc.waiting s.w.calls.length m r) s.unlogged
      rw [e] at this
      exact ⟨nofun, fun _ => this⟩
    | actSkip hp => exact ⟨nofun, fun _ => let c := away hp nofun; ⟨c.on, c.phase, c.sub⟩⟩
    | actShut => cases hq
    | actDestroy => cases hq
    | actTwice => cases hq
    | back hp hb => exact ⟨nofun, fun _ => hkCalm_w hi (away hp nofun) hb nofun nofun nofun _ s.unlogged⟩
    | gone hp => exact ⟨nofun, fun _ => let c := away hp nofun; ⟨c.on, c.phase, c.sub⟩⟩
    | report => exact ⟨nofun, fun e => absurd rfl e⟩
    | cry hp ha => have := (away hp nofun).on; rw [ha] at this; cases this

/-- The thread of the event sleeps: it has handed over its report. -/
theorem asleep_after {ls : List (HkLabel M)} : ∀ {s s' : HkState M}, hkRun s ls = some s' → s.pc ≠ .asleep → s'.pc = .asleep →
    ∃ pre m post u v, ls = pre ++ .finish m :: post ∧ hkRun s pre = some u ∧ u.active = true ∧ u.pc = .inside m [] ∧ hkStep u (.finish m) = some v ∧ wStep u.w (.fatal m) = some v.w ∧
      hkRun v post = some s' ∧ v.active = true := by
  induction ls with
  | nil => intro s s' h hn ha; cases h; exact absurd ha hn
  | cons l ls ih =>
    intro s s' h hn ha
    obtain ⟨v, hv, hr⟩ := Option.bind_eq_some_iff.1 h
    by_cases hva : v.pc = .asleep
    · have ht := (hk_tr hv).2
      cases ht with
      | @report m w hp hon hb => exact ⟨[], m, ls, s, _, rfl, rfl, hon, hp, hv, hb, hr, hon⟩
      | base | logged | lost | actTwice => exact absurd hva hn
      | _ => cases hva
    · obtain ⟨pre, m, post, u, w, e, h1, h2⟩ := ih hr hva ha
      exact ⟨l :: pre, m, post, u, w, by rw [e]; rfl, by show (hkStep s l).bind _ = _; rw [hv]; exact h1, h2⟩

omit [DecidableEq M] in
theorem hkSeen_append (a b : List (HkLabel M)) : ∀ (c n k j : Nat), ∃ n' k' j', hkSeen ((given a).length + c) n k j (a ++ b) = hkSeen (given a).length n k j a ++ hkSeen c n' k' j' b := by
  induction a with
  | nil => intro c n k j; exact ⟨n, k, j, by simp [given, hkSeen]⟩
  | cons l a ih =>
    intro c n k j
    have one : (given a).length + 1 + c = (given a).length + c + 1 := by omega
    cases l with
    | base l => obtain ⟨n', k', j', e⟩ := ih c (n + sinksIn l) (k + callsIn l) j; exact ⟨n', k', j', by simp [given, hkSeen, e]⟩
    | log m => obtain ⟨n', k', j', e⟩ := ih c n k j; exact ⟨n', k', j', by simp [given, hkSeen, one, e]⟩
    | finish m => obtain ⟨n', k', j', e⟩ := ih c n k j; exact ⟨n', k', j', by simp [given, hkSeen, one, e]⟩
    | crash m r => obtain ⟨n', k', j', e⟩ := ih c n k j; exact ⟨n', k', j', by simp [given, hkSeen, e]⟩
    | back => obtain ⟨n', k', j', e⟩ := ih c n k j; exact ⟨n', k', j', by simp [given, hkSeen, e]⟩
    | gone => obtain ⟨n', k', j', e⟩ := ih c n k j; exact ⟨n', k', j', by simp [given, hkSeen, e]⟩
    | act x =>
      cases x with
      | log m => obtain ⟨n', k', j', e⟩ := ih c n k j; exact ⟨n', k', j', by simp [given, hkSeen, one, e]⟩
      | shutdown => obtain ⟨n', k', j', e⟩ := ih c n k j; exact ⟨n', k', j', by simp [given, hkSeen, e]⟩
      | destroy => obtain ⟨n', k', j', e⟩ := ih c n k j; exact ⟨n', k', j', by simp [given, hkSeen, e]⟩
      | sync d =>
        cases d with
        | add => obtain ⟨n', k', j', e⟩ := ih c (n + 1) (k + 1) k; exact ⟨n', k', j', by simp [given, hkSeen, e]⟩
        | clear => obtain ⟨n', k', j', e⟩ := ih c n (k + 1) k; exact ⟨n', k', j', by simp [given, hkSeen, e]⟩
        | remove i =>
          by_cases hi : i < n
          · obtain ⟨n', k', j', e⟩ := ih c n (k + 1) k; exact ⟨n', k', j', by simp [given, hkSeen, hi, e]⟩
          · obtain ⟨n', k', j', e⟩ := ih c n k j; exact ⟨n', k', j', by simp [given, hkSeen, hi, e]⟩

omit [DecidableEq M] in
theorem first_final {p q r t : List (Req M)} {x y : Req M} (h : p ++ x :: q = r ++ y :: t) (hx : x.final = true) (hy : y.final = true)
    (hp : ∀ z ∈ p, z.final = false) (hr : ∀ z ∈ r, z.final = false) : p = r ∧ x = y := by
  induction p generalizing r with
  | nil =>
    cases r with
    | nil => cases h; exact ⟨rfl, rfl⟩
    | cons z r =>
      cases h
      have := hr x (List.mem_cons_self ..)
      rw [hx] at this; cases this
  | cons a p ih =>
    cases r with
    | nil =>
      cases h
      have := hp y (List.mem_cons_self ..)
      rw [hy] at this; cases this
    | cons b r =>
      obtain ⟨rfl, h2⟩ := List.cons.inj h
      obtain ⟨rfl, e⟩ := ih h2 (fun z hz => hp z (List.mem_cons_of_mem _ hz)) (fun z hz => hr z (List.mem_cons_of_mem _ hz))
      exact ⟨rfl, e⟩

/-- C112, the part that holds: a hook that logs, adds and removes sinks, while nobody stops logging and there is no other fatal event. When nothing can go on without new input the process has been ended by the worker; every sink that no client uses has been
destroyed and has processed what was due to it from all that was given to the library before the report, by the hook or by others, and then the report, if it was attached then. -/
theorem C112_partial {ls : List (HkLabel M)} {t : HkState M} (h : hkRun .start ls = some t) (hc : ∃ l ∈ ls, isCrash l = true) (hu : t.w.ub = false)
    (hk : ∀ l ∈ ls, keepsLogging l = true) (hst : hkStuck t) :
    t.w.wpc = .dead ∧ ∃ pre m post, ls = pre ++ .finish m :: post ∧
      let due := handed 0 0 (hkSeen (given pre).length 0 0 0 pre)
      ∀ i, i < t.w.n → ¬ clientUses t.w i → (t.w.sk i).destroyed = true ∧ received (t.w.sk i) = gets i due ++ if attached i due then [.fatal m] else [] := by
  obtain ⟨hno, hcalm⟩ := hkCalm_run h hu hk
  have hb := unblocked_run h hu (fun l hl => by
    have := hk l hl
    unfold notOnSink
    split
    · cases this
    · trivial)
  have hd : t.w.wpc = .dead := (C112_ends h hc hu hb hst).resolve_right hno
  have hi := hk_inv h hu
  have has : t.pc = .asleep := by
    rcases Classical.em (t.pc = .asleep) with e | e
    · exact e
    · exfalso
      have ht := hi.w.book.task
      rw [hd] at ht
      obtain ⟨m, hm⟩ := ht
      have := (hcalm e).sub _ (List.mem_of_getElem? hm)
      cases this
  obtain ⟨pre, m, post, u, v, rfl, hpre, hon, hpc, hv, hfat, hpost, hon'⟩ := asleep_after h nofun has
  refine ⟨hd, pre, m, post, rfl, ?_⟩
  have huv : v.w.ub = false := hk_noub hpost hu
  have huu : u.w.ub = false := (hk_tr hv).1.1
  have hcu := (hkCalm_run hpre huu (fun l hl => hk l (List.mem_append_left _ hl))).2 (by rw [hpc]; nofun)
  obtain ⟨c, hcut, hw, _⟩ := C112_requests h hu
  obtain ⟨c1, hcut1, hw1, _⟩ := C112_requests hpre huu
  have e1 : c1 = (given pre).length := Nat.le_antisymm hcut1.le (hcut1.on pre [] u (by simp) hpre hon)
  subst e1
  have hrun1 : hkRun .start (pre ++ [.finish m]) = some v := hk_append' hpre (by show (hkStep u (.finish m)).bind _ = _; rw [hv]; rfl)
  have hge := hcut.on (pre ++ [.finish m]) post v (by simp) hrun1 hon'
  rw [given_append, List.length_append] at hge
  simp only [given, List.length_cons, List.length_nil] at hge
  obtain ⟨c', rfl⟩ : ∃ c', c = (given pre).length + (c' + 1) := ⟨c - (given pre).length - 1, by omega⟩
  obtain ⟨n', k', j', e⟩ := hkSeen_append pre (.finish m :: post) (c' + 1) 0 0 0
  rw [e] at hw
  simp only [hkSeen] at hw
  -- the requests before the report, the report, the rest
  have hdue : handed 0 0 (hkSeen (given pre).length 0 0 0 pre) = u.w.sub.map req := (sub_handed hw1).symm
  have hw2 : wRun .start (hkSeen (given pre).length 0 0 0 pre ++ [.fatal m]) = some v.w := wRun_append' hw1 (by show (wStep u.w (.fatal m)).bind _ = _; rw [hfat]; rfl)
  have hvs : v.w.sub = u.w.sub ++ [.fatal m] := by
    unfold wStep at hfat
    split at hfat
    · cases hfat
    · simp only [hcu.phase] at hfat
      rw [← Option.some.inj hfat]; rfl
  obtain ⟨x, hx, hx2⟩ := wRun_append (show wRun .start ((hkSeen (given pre).length 0 0 0 pre ++ [.fatal m]) ++ hkSeen c' n' k' j' post) = some t.w by simpa using hw)
  rw [hw2] at hx; cases hx
  obtain ⟨rest, hrest⟩ := handed_append hw2 hx2
  have hall : handed 0 0 (hkSeen (given pre).length 0 0 0 pre ++ .fatal m :: hkSeen c' n' k' j' post) = u.w.sub.map req ++ .fatal m :: rest := by
    rw [show hkSeen (given pre).length 0 0 0 pre ++ .fatal m :: hkSeen c' n' k' j' post = (hkSeen (given pre).length 0 0 0 pre ++ [.fatal m]) ++ hkSeen c' n' k' j' post by simp,
      hrest, ← sub_handed hw2, hvs]
    simp [req]
  obtain ⟨p, m', q, hp, hpf, hgot⟩ := C07_partial hw hd
  rw [hall] at hp
  have hnf : ∀ z ∈ u.w.sub.map req, z.final = false := by
    intro z hz
    obtain ⟨y, hy, rfl⟩ := List.mem_map.1 hz
    have := hcu.sub y hy
    cases y <;> first | rfl | cases this
  obtain ⟨e2, e3⟩ := first_final hp rfl rfl hnf hpf
  cases e3
  subst e2
  intro due i hin hcl
  have : due = u.w.sub.map req := hdue
  rw [this]
  exact hgot i hin hcl

/-! ### Hooks that stop it -/

/-- C112: the thread of the event ends the process itself only when logging was off when the hook returned. The report is on stderr and the worker never gets it; if the worker has been destroyed by then, by the hook or by others, every sink that no client
uses has been destroyed and has processed everything that was handed over. -/
theorem C112_lost {ls : List (HkLabel M)} {s : HkState M} (h : hkRun .start ls = some s) (hu : s.w.ub = false) (ho : s.pc = .over) :
    ∃ pre m c, ls = pre ++ [.finish m] ∧ s.reports = [m] ∧ HkCut .start pre c ∧ wRun .start (hkSeen c 0 0 0 pre) = some s.w ∧
      ((∃ l ∈ pre, keepsLogging l = false)) ∧
      (s.w.phase = .returned → ∀ i, i < s.w.n → ¬ clientUses s.w i → (s.w.sk i).destroyed = true ∧ received (s.w.sk i) = gets i (handed 0 0 (hkSeen c 0 0 0 pre))) := by
  have last : ∃ pre m u, ls = pre ++ [.finish m] ∧ hkRun .start pre = some u ∧ u.pc = .inside m [] ∧ u.active = false ∧ s.w = u.w ∧ s.reports = u.reports ++ [m] := by
    rcases List.eq_nil_or_concat ls with rfl | ⟨pre, l, rfl⟩
    · cases h; cases ho
    · rw [List.concat_eq_append] at h ⊢
      obtain ⟨u, hpre, hs⟩ := hk_append h
      obtain ⟨v, hv, hs⟩ := Option.bind_eq_some_iff.1 hs
      cases hs
      have hnot := (hk_tr hv).1.2.2
      have hno : u.pc ≠ .over := by intro e; rw [e] at hnot; cases hnot
      have ht := (hk_tr hv).2
      cases ht with
      | @cry m hp ha => exact ⟨pre, m, u, rfl, hpre, hp, ha, rfl, rfl⟩
      | base | logged | lost | actTwice => exact absurd ho hno
      | _ => cases ho
  obtain ⟨pre, m, u, rfl, hpre, hp, ha, hw, hrep⟩ := last
  have huu : u.w.ub = false := by rw [← hw]; exact hu
  obtain ⟨c, hcut, hrun, _, hr⟩ := C112_requests hpre huu
  have hnone : u.reports = [] := by
    have : u.reports ≠ [] → u.pc = .over := by
      refine hk_induct (P := fun s => s.reports ≠ [] → s.pc = .over) ?_ pre (by intro e; exact absurd rfl e) hpre
      intro s l s' hi ht
      have no : ∀ {pc : HkPc M}, s.pc = pc → pc ≠ .over → ¬ s.reports ≠ [] := fun e hne hr => hne (by rw [← e]; exact hi hr)
      cases ht with
      | base | logged | lost | actTwice => exact hi
      | cry => exact fun _ => rfl
      | crash hp | actLogged hp | actLost hp | actSync hp | actSkip hp | actShut hp | actDestroy hp | back hp | gone hp | report hp => exact fun hr => absurd hr (no hp nofun)
    by_contra hne
    rw [this hne] at hp; cases hp
  refine ⟨pre, m, c, rfl, by rw [hrep, hnone]; rfl, hcut, by rw [hw]; exact hrun, ?_, fun hph i hin hcl => ?_⟩
  · by_contra hall
    have hk : ∀ l ∈ pre, keepsLogging l = true := by
      intro l hl
      cases e : keepsLogging l with
      | true => rfl
      | false => exact absurd ⟨l, hl, e⟩ hall
    have := ((hkCalm_run hpre huu hk).2 (by rw [hp]; nofun)).on
    rw [ha] at this; cases this
  · rw [hw] at hph hin hcl ⊢
    obtain ⟨a, b, _⟩ := C03_partial hrun hph i hin hcl
    exact ⟨a, b⟩

/-! ### Cases -/

/-- A program with one sink, which logs 5; the hook of the event with report 9 logs 6, adds a sink and waits for it. -/
def hookLogs : List (HkLabel Nat) :=
  [.base .add, .base .work, .base (.ret 0), .log 5, .crash 9 [.log 6, .sync .add, .sync (.remove 7)], .act (.log 6), .act (.sync .add)] ++ List.replicate 7 (.base .work) ++
  [.back, .act (.sync (.remove 7)), .finish 9] ++ List.replicate 5 (.base .work) ++
  [.base (.sinkPop 0), .base (.sinkFin 0), .base (.sinkPop 0), .base (.sinkFin 0), .base (.sinkPop 0), .base (.sinkFin 0), .base (.sinkPop 0), .base (.sinkFin 0)] ++ List.replicate 2 (.base .work) ++
  [.base (.sinkPop 1), .base (.sinkFin 1), .base (.sinkPop 1), .base (.sinkFin 1)] ++ List.replicate 2 (.base .work)

/-- C112_partial, C112_once, C112_waits: its first sink has 5, 6 and the report, the one added by the hook has the report, and the process has ended. -/
example : ∃ t : HkState Nat, hkRun .start hookLogs = some t ∧ t.w.ub = false ∧ t.w.wpc = .dead ∧ t.pc = .asleep ∧ (∃ l ∈ hookLogs, isCrash l = true) ∧ (∀ l ∈ hookLogs, keepsLogging l = true) ∧
    received (t.w.sk 0) = [.log 5, .log 6, .fatal 9] ∧ received (t.w.sk 1) = [.fatal 9] ∧ t.reports = [] ∧ t.unlogged = [] :=
  ⟨_, rfl, rfl, rfl, rfl, ⟨.crash 9 [.log 6, .sync .add, .sync (.remove 7)], by decide +kernel, rfl⟩, by decide +kernel, rfl, rfl, rfl, rfl⟩

/-- Nothing goes on after the end. -/
example (t : HkState Nat) (h : hkRun .start hookLogs = some t) : hkStuck t := by
  have hd : t.w.wpc.isDead = true := by cases h; rfl
  intro l _
  unfold hkStep
  rw [if_pos (by simp [hd])]

/-- A program with one sink, which logs 5; the hook of the event with report 9 destroys the worker, then logs 6. -/
def hookDestroys : List (HkLabel Nat) :=
  [.base .add, .base .work, .base (.ret 0), .log 5, .crash 9 [.destroy, .log 6], .act .destroy] ++ List.replicate 5 (.base .work) ++
  [.base (.sinkPop 0), .base (.sinkFin 0), .base (.sinkPop 0), .base (.sinkFin 0)] ++ List.replicate 2 (.base .work) ++
  [.base .dtor, .base .work, .base .dtor, .base .dtor, .gone, .act (.log 6), .finish 9]

/-- C112, where it fails: a hook that cleans up by destroying the worker. The sink is attached when the event happens and no client uses it; the process ends, and the sink has the entry that was logged before and not the report, nor what the hook logs. -/
theorem C112_negation : ∃ t : HkState Nat, hkRun .start hookDestroys = some t ∧ t.w.ub = false ∧ t.pc = .over ∧ t.w.phase = .returned ∧ (t.w.sk 0).destroyed = true ∧
    received (t.w.sk 0) = [.log 5] ∧ t.reports = [9] ∧ t.unlogged = [6] ∧ ∀ l, hkStep t l = none := by
  have key : ∀ t : HkState Nat, hkRun .start hookDestroys = some t → ∀ l, hkStep t l = none := by
    intro t h l
    have ho : t.pc.isOver = true := by cases h; rfl
    unfold hkStep
    rw [if_pos (by simp [ho])]
  exact ⟨_, rfl, rfl, rfl, rfl, rfl, rfl, rfl, rfl, key _ rfl⟩

/-- The hook of the event only shuts logging down. -/
def hookShuts : List (HkLabel Nat) :=
  [.base .add, .base .work, .base (.ret 0), .log 5, .crash 9 [.shutdown], .act .shutdown, .finish 9]

/-- C112, where it fails: a hook that shuts logging down. The process ends at once: the sink has neither the report nor the entry logged before. -/
theorem C112_shutdown_negation : ∃ t : HkState Nat, hkRun .start hookShuts = some t ∧ t.w.ub = false ∧ t.pc = .over ∧ t.w.att = [0] ∧ received (t.w.sk 0) = [] ∧ t.reports = [9] ∧
    ∀ l, hkStep t l = none := by
  have key : ∀ t : HkState Nat, hkRun .start hookShuts = some t → ∀ l, hkStep t l = none := by
    intro t h l
    have ho : t.pc.isOver = true := by cases h; rfl
    unfold hkStep
    rw [if_pos (by simp [ho])]
  exact ⟨_, rfl, rfl, rfl, rfl, rfl, rfl, key _ rfl⟩

/-- C112_lost: both are of the kind in question. -/
example : (∃ l ∈ hookDestroys, keepsLogging l = false) ∧ ∃ l ∈ hookShuts, keepsLogging l = false :=
  ⟨⟨.act .destroy, by decide +kernel, rfl⟩, .act .shutdown, by decide +kernel, rfl⟩

/-- C112_destroyed: a hook that destroys the worker twice has undefined behaviour. -/
example : ∃ t : HkState Nat, hkRun .start [.crash 9 [.destroy, .destroy], .act .destroy, .base .work, .base .work, .base .dtor, .base .work, .base .dtor, .base .dtor, .gone, .act .destroy] = some t ∧ t.w.ub = true :=
  ⟨_, rfl, rfl⟩

/-! ### The others -/

/-- C112: what the other threads do meanwhile: every entry is given to the library and not to the worker directly; another fatal event is later than the one with the hook, and the worker gets it only while logging is on; nobody else returns from
the call the hook is in. -/
theorem C112_others {pre post : List (HkLabel M)} {l : WLabel M} {s : HkState M} (h : hkRun .start (pre ++ .base l :: post) = some s) :
    (∀ m, l ≠ .save m) ∧
    ((∃ m, l = .fatal m ∨ ∃ i, l = .sinkFatal i m) → (∃ x ∈ pre, isCrash x = true) ∧
      ∃ u, hkRun .start pre = some u ∧ u.w.phase = .notStarted ∧ NoFatal u.w ∧ .act .shutdown ∉ pre) ∧
    ∀ k, l = .ret k → ∃ u, hkRun .start pre = some u ∧ ∀ m r, u.pc ≠ .waiting k m r := by
  obtain ⟨u, hpre, hs⟩ := hk_append h
  obtain ⟨v, hv, _⟩ := Option.bind_eq_some_iff.1 hs
  obtain ⟨⟨hu, _, _⟩, ht⟩ := hk_tr hv
  have calm : ∀ (ls : List (HkLabel M)) {s s' : HkState M}, hkRun s ls = some s' → s.pc = .calm → (∀ x ∈ ls, isCrash x = false) → s'.pc = .calm := by
    intro ls
    induction ls with
    | nil => intro s s' h hp _; cases h; exact hp
    | cons l ls ih =>
      intro s s' h hp hn
      obtain ⟨v, hv, h⟩ := Option.bind_eq_some_iff.1 h
      refine ih h ?_ (fun x hx => hn x (List.mem_cons_of_mem _ hx))
      have hl := hn l (List.mem_cons_self ..)
      have ht := (hk_tr hv).2
      cases ht <;> simp_all [isCrash]
  cases ht with
  | base hk hw =>
    refine ⟨?_, ?_, ?_⟩
    · rintro m rfl; cases hk
    · intro hm
      have hb : u.active = true ∧ u.pc.isCalm = false := by
        rcases hm with ⟨m, rfl | ⟨i, rfl⟩⟩ <;> simpa [hkOk] using hk
      refine ⟨?_, u, hpre, (C112_active hpre hu).1 hb.1⟩
      rcases Classical.em (∃ x ∈ pre, isCrash x = true) with hc | hc
      · exact hc
      · have := calm pre hpre rfl (fun x hx => by
          cases e : isCrash x with
          | false => rfl
          | true => exact absurd ⟨x, hx, e⟩ hc)
        rw [this] at hb
        cases hb.2
    · rintro k rfl
      refine ⟨u, hpre, fun m r e => ?_⟩
      simp [hkOk, e, HkPc.waitsFor] at hk

/-- C112_others: a second event of a client, while the hook waits for its call. -/
example : ∃ s : HkState Nat, hkRun .start ([.crash 9 [.sync .add], .act (.sync .add)] ++ .base (.fatal 8) :: [.base .work, .base .work]) = some s := ⟨_, rfl⟩

end G3.Props
