import Verif.Spec.SinkDtor
import Verif.Props.WorkerSignal
/-
C110: destructors of sinks that use the library.
-/
namespace G3.Props
open G3 G3.Spec

variable {M : Type}

/-! ### What the steps of the worker leave alone -/

theorem step_frame {s s' : WState M} {l : WLabel M} (h : wStep s l = some s') :
    (l ≠ .dtor → s'.phase = s.phase) ∧ (l ≠ .work → s'.err = s.err) ∧ (l = .dtor → s'.phase ≠ .notStarted) ∧
    (s'.ub = true ∨ s'.calls.length = s.calls.length + callsIn l) := by
  unfold wStep at h
  split at h
  · cases h
  · cases l with
    | work =>
      simp only [workStep, takeTask] at h
      refine ⟨fun _ => ?_, fun hn => absurd rfl hn, nofun, Or.inr ?_⟩
      all_goals
        repeat' split at h
        all_goals first | (cases h; done) | (cases h; rfl)
    | save m => simp only at h; split at h <;> (cases h; exact ⟨fun _ => rfl, fun _ => rfl, nofun, by first | exact Or.inl rfl | exact Or.inr rfl⟩)
    | fatal m => simp only at h; split at h <;> (cases h; exact ⟨fun _ => rfl, fun _ => rfl, nofun, by first | exact Or.inl rfl | exact Or.inr rfl⟩)
    | add =>
      simp only [Option.some.injEq] at h; subst h
      unfold addStep beginCall
      repeat' split
      all_goals exact ⟨fun _ => rfl, fun _ => rfl, nofun, by first | exact Or.inl rfl | exact Or.inr (by simp [callsIn])⟩
    | remove i =>
      simp only at h; split at h
      · cases h; unfold beginCall; repeat' split
        all_goals exact ⟨fun _ => rfl, fun _ => rfl, nofun, by first | exact Or.inl rfl | exact Or.inr (by simp [callsIn])⟩
      · cases h
    | clear =>
      simp only [Option.some.injEq] at h; subst h
      unfold beginCall
      repeat' split
      all_goals exact ⟨fun _ => rfl, fun _ => rfl, nofun, by first | exact Or.inl rfl | exact Or.inr (by simp [callsIn])⟩
    | ret k =>
      simp only [retStep] at h
      split at h
      · cases h
      · split at h
        · split at h
          · cases h; unfold clientDrop; split <;> exact ⟨fun _ => rfl, fun _ => rfl, nofun, Or.inr (by simp [callsIn])⟩
          · cases h; exact ⟨fun _ => rfl, fun _ => rfl, nofun, Or.inr (by simp [callsIn])⟩
        · cases h
    | hold i => simp only at h; split at h <;> cases h; exact ⟨fun _ => rfl, fun _ => rfl, nofun, Or.inr rfl⟩
    | holdFail i c => simp only at h; split at h <;> cases h; exact ⟨fun _ => rfl, fun _ => rfl, nofun, Or.inr rfl⟩
    | call i c => simp only at h; split at h <;> cases h; exact ⟨fun _ => rfl, fun _ => rfl, nofun, Or.inr rfl⟩
    | release i =>
      simp only at h; split at h <;> cases h
      unfold clientDrop; split <;> exact ⟨fun _ => rfl, fun _ => rfl, nofun, Or.inr rfl⟩
    | reap i => simp only at h; split at h <;> cases h; exact ⟨fun _ => rfl, fun _ => rfl, nofun, Or.inr rfl⟩
    | dtor =>
      simp only [dtorStep] at h
      refine ⟨fun hn => absurd rfl hn, fun _ => ?_, fun _ => ?_, Or.inr ?_⟩
      · repeat' split at h
        all_goals first | (cases h; done) | (cases h; rfl)
      · repeat' split at h
        all_goals first | (cases h; done) | (cases h; simp; done) | (cases h; simp_all)
      · repeat' split at h
        all_goals first | (cases h; done) | (cases h; rfl)
    | sinkPop i =>
      simp only [sinkPop] at h
      split at h
      · split at h <;> cases h; exact ⟨fun _ => rfl, fun _ => rfl, nofun, Or.inr rfl⟩
      · cases h
    | sinkFin i =>
      simp only [sinkFin] at h
      split at h
      · split at h <;> cases h <;> exact ⟨fun _ => rfl, fun _ => rfl, nofun, Or.inr rfl⟩
      · cases h
    | sinkFatal i m =>
      simp only at h
      split at h
      · split at h <;> (cases h; exact ⟨fun _ => rfl, fun _ => rfl, nofun, by first | exact Or.inl rfl | exact Or.inr rfl⟩)
      · cases h

/-- What the worker thread adds to stderr. -/
theorem work_err {s s' : WState M} (h : wStep s .work = some s') :
    (takesFatal s = true ∧ ∃ m, s'.err = s.err ++ [.fatal m]) ∨
    (takesFatal s = false ∧ (s'.err = s.err ∨ ∃ m, s'.err = s.err ++ [.noSinks m])) := by
  unfold wStep at h
  split at h
  · cases h
  simp only [workStep] at h
  unfold takesFatal
  cases hp : s.wpc with
  | idle =>
    rw [hp] at h
    simp only [takeTask] at h
    cases hq : s.wq with
    | nil => rw [hq] at h; cases h
    | cons t r =>
      rw [hq] at h
      cases t with
      | fatal m => cases h; exact Or.inl ⟨rfl, m, rfl⟩
      | save m => simp only at h; split at h <;> cases h
                  · exact Or.inr ⟨rfl, Or.inr ⟨m, rfl⟩⟩
                  · exact Or.inr ⟨rfl, Or.inl rfl⟩
      | add i => cases h; exact Or.inr ⟨rfl, Or.inl rfl⟩
      | remove i => simp only at h; split at h <;> (cases h; exact Or.inr ⟨rfl, Or.inl rfl⟩)
      | clear => cases h; exact Or.inr ⟨rfl, Or.inl rfl⟩
      | done => cases h; exact Or.inr ⟨rfl, Or.inl rfl⟩
  | sending x rest =>
    rw [hp] at h
    refine Or.inr ⟨rfl, Or.inl ?_⟩
    cases rest with
    | nil => cases x <;> (cases h; rfl)
    | cons i rest => cases x <;> (cases h; rfl)
  | rmHeld i => rw [hp] at h; simp only at h; split at h <;> (cases h; exact Or.inr ⟨rfl, Or.inl rfl⟩)
  | rmWait i => rw [hp] at h; simp only at h; split at h <;> cases h; exact Or.inr ⟨rfl, Or.inl rfl⟩
  | clearing f =>
    rw [hp] at h; simp only at h
    split at h
    · split at h <;> (cases h; exact Or.inr ⟨rfl, Or.inl rfl⟩)
    · split at h <;> (cases h; exact Or.inr ⟨rfl, Or.inl rfl⟩)
  | clrWait i f => rw [hp] at h; simp only at h; split at h <;> cases h; exact Or.inr ⟨rfl, Or.inl rfl⟩
  | ended => rw [hp] at h; cases h
  | dead => rw [hp] at h; cases h

/-- No fatal message has been taken up. -/
def NoFatal (s : WState M) : Prop := ∀ m, ErrLine.fatal m ∉ s.err

/-! ### Until when entries reach the worker -/

/-- The steps of the whole, case by case. -/
inductive DtTr : DtState M → DtLabel M → DtState M → Prop
  | base {s l w} : dtOk s l = true → wStep s.w l = some w → DtTr s (.base l) { s with w := w, active := activeAfter s l }
  | logged {s who m w} : (∀ i, who = some i → inSinkDtor s i = true) → s.active = true → wStep s.w (.save m) = some w → DtTr s (.log who m) { s with w := w }
  | lost {s who m} : (∀ i, who = some i → inSinkDtor s i = true) → s.active = false → DtTr s (.log who m) { s with unlogged := s.unlogged ++ [m] }
  | sync {s i c w} : onWorker s.w i = true → s.waits = none → wStep s.w (DtSync.label c) = some w → DtTr s (.sync i c) { s with w := w, waits := some s.w.calls.length }
  | back {s k w} : s.waits = some k → wStep s.w (.ret k) = some w → DtTr s .back { s with w := w, waits := none }

theorem dt_log {s s' : DtState M} {who : Option Nat} {m : M} (hw : ∀ i, who = some i → inSinkDtor s i = true) (h : logD s m = some s') :
    DtTr s (.log who m) s' := by
  unfold logD at h
  cases ha : s.active with
  | true =>
    rw [if_pos ha] at h
    obtain ⟨w, hb, rfl⟩ := Option.map_eq_some_iff.1 h
    exact .logged hw ha hb
  | false =>
    rw [if_neg (by simp [ha])] at h
    cases h
    exact .lost hw ha

theorem dt_tr {s s' : DtState M} {l : DtLabel M} (h : dtStep s l = some s') : (s.w.ub = false ∧ s.w.wpc.isDead = false) ∧ DtTr s l s' := by
  unfold dtStep at h
  split at h
  · cases h
  rename_i hu
  have hu' : s.w.ub = false ∧ s.w.wpc.isDead = false := by
    simpa [Bool.or_eq_true] using hu
  refine ⟨hu', ?_⟩
  cases l with
  | base l =>
    simp only at h
    split at h
    · rename_i hk
      obtain ⟨w, hb, rfl⟩ := Option.map_eq_some_iff.1 h
      exact .base hk hb
    · cases h
  | log who m =>
    cases who with
    | none => exact dt_log nofun h
    | some i =>
      simp only at h
      split at h
      · rename_i hi
        exact dt_log (fun j e => by cases e; exact hi) h
      · cases h
  | sync i c =>
    simp only at h
    split at h
    · rename_i hi
      rw [Bool.and_eq_true] at hi
      obtain ⟨w, hb, rfl⟩ := Option.map_eq_some_iff.1 h
      exact .sync hi.1 (by simpa using hi.2) hb
    · cases h
  | back =>
    simp only at h
    split at h
    · cases h
    · rename_i k hk
      obtain ⟨w, hb, rfl⟩ := Option.map_eq_some_iff.1 h
      exact .back hk hb

theorem dt_append {a b : List (DtLabel M)} : ∀ {s s' : DtState M}, dtRun s (a ++ b) = some s' → ∃ u, dtRun s a = some u ∧ dtRun u b = some s' := by
  induction a with
  | nil => intro s s' h; exact ⟨s, rfl, h⟩
  | cons l a ih =>
    intro s s' h
    obtain ⟨v, hv, h⟩ := Option.bind_eq_some_iff.1 h
    obtain ⟨u, hu, hb⟩ := ih h
    exact ⟨u, by show (dtStep s l).bind _ = _; rw [hv]; exact hu, hb⟩

theorem dt_append' {a b : List (DtLabel M)} : ∀ {s u s' : DtState M}, dtRun s a = some u → dtRun u b = some s' → dtRun s (a ++ b) = some s' := by
  induction a with
  | nil => intro s u s' h g; cases h; exact g
  | cons l a ih =>
    intro s u s' h g
    obtain ⟨v, hv, h⟩ := Option.bind_eq_some_iff.1 h
    show (dtStep s l).bind _ = _
    rw [hv]; exact ih h g

theorem noFatal_more {s s' : WState M} (h : s'.err = s.err ∨ ∃ m, s'.err = s.err ++ [.noSinks m]) : NoFatal s' ↔ NoFatal s := by
  unfold NoFatal
  rcases h with h | ⟨m, h⟩ <;> simp [h]

theorem active_step {s s' : DtState M} {l : DtLabel M} (h : DtTr s l s') (hi : s.active = true ↔ s.w.phase = .notStarted ∧ NoFatal s.w) :
    s'.active = true ↔ s'.w.phase = .notStarted ∧ NoFatal s'.w := by
  have keep : ∀ {l : WLabel M} {w : WState M}, wStep s.w l = some w → l ≠ .dtor → l ≠ .work → (s.active = true ↔ w.phase = .notStarted ∧ NoFatal w) := by
    intro l w hb h1 h2
    obtain ⟨a, b, _⟩ := step_frame hb
    rw [a h1, noFatal_more (Or.inl (b h2))]; exact hi
  cases h with
  | @base l w hk hb =>
    by_cases h1 : l = .dtor
    · subst h1
      have := (step_frame hb).2.2.1 rfl
      simp only [activeAfter]
      constructor
      · intro e; cases e
      · intro e; exact absurd e.1 this
    by_cases h2 : l = .work
    · subst h2
      have hph := (step_frame hb).1 h1
      show (s.active && !takesFatal s.w) = true ↔ w.phase = .notStarted ∧ NoFatal w
      rcases work_err hb with ⟨ht, m, he⟩ | ⟨ht, he⟩
      · rw [ht, Bool.not_true, Bool.and_false]
        constructor
        · intro e; cases e
        · intro e; exact absurd (by rw [he]; simp) (e.2 m)
      · rw [ht, Bool.not_false, Bool.and_true, hph, noFatal_more he]; exact hi
    · have : activeAfter s l = s.active := by cases l <;> first | rfl | exact absurd rfl h1 | exact absurd rfl h2
      show activeAfter s l = true ↔ _
      rw [this]
      exact keep hb h1 h2
  | logged _ _ hb => exact keep hb nofun nofun
  | lost => exact hi
  | @sync _ c _ _ _ hb => exact keep hb (by cases c <;> nofun) (by cases c <;> nofun)
  | back _ hb => exact keep hb nofun nofun

theorem dt_induct {P : DtState M → Prop} (hstep : ∀ s l s', P s → DtTr s l s' → P s') (ls : List (DtLabel M)) :
    ∀ {s s' : DtState M}, P s → dtRun s ls = some s' → P s' := by
  induction ls with
  | nil => intro s s' h hr; cases hr; exact h
  | cons l ls ih =>
    intro s s' h hr
    obtain ⟨v, hv, hr⟩ := Option.bind_eq_some_iff.1 hr
    exact ih (hstep _ _ _ h (dt_tr hv).2) hr

/-- C110: LOG hands entries to the worker exactly as long as nobody has begun to destroy it and it has taken up no fatal message. -/
theorem C110_active {ls : List (DtLabel M)} {s : DtState M} (h : dtRun .start ls = some s) :
    s.active = true ↔ s.w.phase = .notStarted ∧ NoFatal s.w :=
  dt_induct (fun _ _ _ hi ht => active_step ht hi) ls (by constructor <;> intro _ <;> first | rfl | exact ⟨rfl, nofun⟩) h

theorem inactive_stays {s s' : DtState M} {l : DtLabel M} (h : DtTr s l s') (hi : s.active = false) : s'.active = false := by
  cases h with
  | @base l w hk hb => show activeAfter s l = false; cases l <;> simp [activeAfter, hi]
  | logged _ ha => rw [hi] at ha; cases ha
  | lost => exact hi
  | sync => exact hi
  | back => exact hi

/-! ### The requests -/

theorem dt_ub {s s' : DtState M} {ls : List (DtLabel M)} (hu : s.w.ub = true) (h : dtRun s ls = some s') : ls = [] ∧ s' = s := by
  cases ls with
  | nil => cases h; exact ⟨rfl, rfl⟩
  | cons l ls =>
    obtain ⟨v, hv, _⟩ := Option.bind_eq_some_iff.1 h
    have := (dt_tr hv).1.1
    rw [hu] at this; cases this

theorem loggedBy_append (a b : List (DtLabel M)) : loggedBy (a ++ b) = loggedBy a ++ loggedBy b := by
  induction a with
  | nil => rfl
  | cons l a ih => cases l <;> simp [loggedBy, ih]

/-- The number of entries that reach the worker in a schedule from `s` to `s'`. -/
structure Cut (s : DtState M) (ls : List (DtLabel M)) (n : Nat) : Prop where
  le : n ≤ (loggedBy ls).length
  on : ∀ pre post u, ls = pre ++ post → dtRun s pre = some u → u.active = true → (loggedBy pre).length ≤ n
  off : ∀ pre post u, ls = pre ++ post → dtRun s pre = some u → u.active = false → n ≤ (loggedBy pre).length

theorem cut_nil (s : DtState M) : Cut s [] 0 :=
  ⟨Nat.le_refl _, fun pre post u e _ _ => by rw [(List.append_eq_nil_iff.1 e.symm).1]; exact Nat.le_refl _, fun _ _ _ _ _ _ => Nat.zero_le _⟩

theorem cut_cons {s s1 : DtState M} {l : DtLabel M} {ls : List (DtLabel M)} {n d : Nat} (hs : dtStep s l = some s1) (h : Cut s1 ls n)
    (hd : (loggedBy [l]).length = d ∧ (s.active = false → n + d = 0)) : Cut s (l :: ls) (n + d) := by
  have hl : ∀ t, (loggedBy (l :: t)).length = d + (loggedBy t).length := by
    intro t
    rw [show l :: t = [l] ++ t from rfl, loggedBy_append, List.length_append, hd.1]
  have split : ∀ pre post u, l :: ls = pre ++ post → dtRun s pre = some u → (pre = [] ∧ u = s) ∨ ∃ p, pre = l :: p ∧ ls = p ++ post ∧ dtRun s1 p = some u := by
    intro pre post u e hr
    cases pre with
    | nil => cases hr; exact Or.inl ⟨rfl, rfl⟩
    | cons x p =>
      obtain ⟨rfl, e2⟩ := List.cons.inj e
      obtain ⟨v, hv, hr⟩ := Option.bind_eq_some_iff.1 hr
      rw [hs] at hv; cases hv
      exact Or.inr ⟨p, rfl, e2, hr⟩
  refine ⟨by rw [hl]; have := h.le; omega, fun pre post u e hr ha => ?_, fun pre post u e hr ha => ?_⟩
  · rcases split pre post u e hr with ⟨rfl, rfl⟩ | ⟨p, rfl, e2, hr⟩
    · exact Nat.zero_le _
    · rw [hl]; have := h.on p post u e2 hr ha; omega
  · rcases split pre post u e hr with ⟨rfl, rfl⟩ | ⟨p, rfl, e2, hr⟩
    · rw [hd.2 ha]; exact Nat.zero_le _
    · rw [hl]; have := h.off p post u e2 hr ha; omega

theorem cut_off {s : DtState M} {ls : List (DtLabel M)} {n : Nat} (h : Cut s ls n) (ha : s.active = false) : n = 0 :=
  Nat.le_zero.1 (h.off [] ls s rfl rfl ha)

/-- From any state. -/
theorem dt_requests (ls : List (DtLabel M)) : ∀ {s s' : DtState M} (b : Nat), dtRun s ls = some s' → (∀ k, s.waits = some k → k = b) →
    ∃ n, Cut s ls n ∧ wRun s.w (asSeen n s.w.calls.length b ls) = some s'.w ∧ s'.unlogged = s.unlogged ++ (loggedBy ls).drop n := by
  induction ls with
  | nil => intro s s' b h hb; cases h; exact ⟨0, cut_nil s, rfl, by simp [loggedBy]⟩
  | cons l ls ih =>
    intro s s' b h hb
    obtain ⟨v, hv, hr⟩ := Option.bind_eq_some_iff.1 h
    obtain ⟨_, ht⟩ := dt_tr hv
    -- the tail seen with the right count of calls, whatever happens
    have tail : ∀ (l' : WLabel M) (b' : Nat), wStep s.w l' = some v.w → (∀ k, v.waits = some k → k = b') →
        ∃ n, Cut v ls n ∧ wRun s.w (l' :: asSeen n (s.w.calls.length + callsIn l') b' ls) = some s'.w ∧ s'.unlogged = v.unlogged ++ (loggedBy ls).drop n := by
      intro l' b' hl' hb'
      obtain ⟨n, hc, hw, hu⟩ := ih b' hr hb'
      refine ⟨n, hc, ?_, hu⟩
      show (wStep s.w l').bind _ = _
      rw [hl']
      rcases (step_frame hl').2.2.2 with hub | hlen
      · obtain ⟨rfl, rfl⟩ := dt_ub hub hr
        rfl
      · rw [← hlen]; exact hw
    cases ht with
    | @base l w hk hs =>
      obtain ⟨n, hc, hw, hu⟩ := tail l b hs hb
      have hna : s.active = false → n + 0 = 0 := fun ha => cut_off hc (inactive_stays (dt_tr hv).2 ha)
      refine ⟨n, cut_cons hv hc ⟨rfl, hna⟩, ?_, hu⟩
      cases n <;> exact hw
    | @logged who m w hwho ha hs =>
      obtain ⟨n, hc, hw, hu⟩ := tail (.save m) b hs hb
      exact ⟨n + 1, cut_cons (d := 1) hv hc ⟨rfl, fun e => by rw [ha] at e; cases e⟩, hw, hu⟩
    | @lost who m hwho ha =>
      obtain ⟨n, hc, hw, hu⟩ := ih b hr hb
      have hn : n = 0 := cut_off hc ha
      subst hn
      refine ⟨0, ⟨Nat.zero_le _, fun pre post u e hp hu' => ?_, fun _ _ _ _ _ _ => Nat.zero_le _⟩, hw, ?_⟩
      · cases pre with
        | nil => exact Nat.zero_le _
        | cons x p =>
          have : u.active = false := dt_induct (P := fun s => s.active = false) (fun _ _ _ a t => inactive_stays t a) _ ha hp
          rw [this] at hu'; cases hu'
      · rw [hu]; simp [loggedBy]
    | @sync i c w _ hwt hs =>
      obtain ⟨n, hc, hw, hu⟩ := tail c.label s.w.calls.length hs (fun k e => by cases e; rfl)
      have hna : s.active = false → n + 0 = 0 := fun ha => cut_off hc (inactive_stays (dt_tr hv).2 ha)
      refine ⟨n, cut_cons hv hc ⟨rfl, hna⟩, ?_, hu⟩
      have e : callsIn (c.label : WLabel M) = 1 := by cases c <;> rfl
      rw [e] at hw
      cases n <;> exact hw
    | @back k w hwt hs =>
      have := hb k hwt
      subst this
      obtain ⟨n, hc, hw, hu⟩ := tail (.ret k) k hs nofun
      have hna : s.active = false → n + 0 = 0 := fun ha => cut_off hc (inactive_stays (dt_tr hv).2 ha)
      refine ⟨n, cut_cons hv hc ⟨rfl, hna⟩, ?_, hu⟩
      cases n <;> exact hw

/-- C110: for the worker, the destructors of sinks are clients like others. Every run is one of the worker on its own (Model/Worker), in which the first `n` entries that are logged, by clients and by destructors, are handed to it, in order,
and the others are not; `n` is the number of entries logged while logging was active. -/
theorem C110_requests {ls : List (DtLabel M)} {s : DtState M} (h : dtRun .start ls = some s) :
    ∃ n, Cut .start ls n ∧ wRun .start (asSeen n 0 0 ls) = some s.w ∧ s.unlogged = (loggedBy ls).drop n := by
  obtain ⟨n, hc, hw, hu⟩ := dt_requests ls 0 h nofun
  exact ⟨n, hc, hw, by simpa [DtState.start] using hu⟩

/-- From any state that a run reaches, the rest is a run of the worker too. -/
theorem dt_tail {ls : List (DtLabel M)} {s s' : DtState M} (h : dtRun s ls = some s') : ∃ B, wRun s.w B = some s'.w := by
  obtain ⟨n, _, hw, _⟩ := dt_requests ls (s.waits.getD 0) h (fun k e => by rw [e]; rfl)
  exact ⟨_, hw⟩

/-! ### LOG in destructors -/

/-- C110, the part that holds: LOG in the destructor of a sink. While the worker is in use (nobody has begun to destroy it, it has taken up no fatal message) the entry is delivered like any other: with `a` the requests made before, none of them final,
every sink that is attached when its turn comes has it after what it got from `a`, once all is quiet. -/
theorem C110_partial {pre post : List (DtLabel M)} {u s : DtState M} {i : Nat} {m : M} (hu : dtRun .start pre = some u)
    (ha : u.w.phase = .notStarted ∧ NoFatal u.w) (h : dtRun u (.log (some i) m :: post) = some s) (hub : s.w.ub = false) (hs : settled s.w) :
    ∃ n, Cut .start pre n ∧ let a := handed 0 0 (asSeen n 0 0 pre)
      (∀ r ∈ a, r.final = false) → ∀ j, (s.w.sk j).q = [] → (s.w.sk j).running = none →
        ∃ rest, received (s.w.sk j) = gets j a ++ (if attached j a then [.log m] else []) ++ rest := by
  obtain ⟨n, hc, hw, _⟩ := C110_requests hu
  refine ⟨n, hc, fun hfin j hq hr => ?_⟩
  have hact := (C110_active hu).2 ha
  obtain ⟨v, hv, hr'⟩ := Option.bind_eq_some_iff.1 h
  obtain ⟨B, hB⟩ := dt_tail hr'
  have hsv : wStep u.w (.save m) = some v.w := by
    match v, (dt_tr hv).2 with
    | _, .logged _ _ hb => exact hb
    | _, .lost _ hf => rw [hact] at hf; cases hf
  have hall : wRun .start (asSeen n 0 0 pre ++ .save m :: B) = some s.w :=
    wRun_append' hw (by show (wStep u.w (.save m)).bind _ = _; rw [hsv]; exact hB)
  obtain ⟨t, ht, _⟩ := handed_save hall hub
  obtain ⟨rest, hrest, _⟩ := C02_each j (handed 0 0 (asSeen n 0 0 pre)) t m hfin
  exact ⟨rest, by rw [C02_complete hall hs j hq hr, ht, hrest]⟩

/-- C110: LOG in a destructor always comes back, at once: whatever the state, no undefined behaviour, no sink and no other thread is touched. -/
theorem C110_log {pre : List (DtLabel M)} {u : DtState M} {i : Nat} (m : M) (hu : dtRun .start pre = some u) (hub : u.w.ub = false)
    (hd : u.w.wpc ≠ .dead) (hi : inSinkDtor u i = true) :
    ∃ s, dtStep u (.log (some i) m) = some s ∧ s.w.ub = false ∧ s.w.sk = u.w.sk ∧ s.w.wpc = u.w.wpc ∧ s.w.phase = u.w.phase ∧ s.w.att = u.w.att ∧
      s.w.calls = u.w.calls ∧ s.w.err = u.w.err ∧ s.waits = u.waits ∧ s.active = u.active ∧
      (u.active = true → s.w.wq = u.w.wq ++ [.save m] ∧ s.unlogged = u.unlogged) ∧
      (u.active = false → s.w = u.w ∧ s.unlogged = u.unlogged ++ [m]) := by
  have hdd : u.w.wpc.isDead = false := by
    cases hw : u.w.wpc <;> first | rfl | exact absurd hw hd
  have e : dtStep u (.log (some i) m) = logD u m := by
    unfold dtStep
    rw [if_neg (by simp [hub, hdd])]
    simp only [hi, if_true]
  rw [e]
  cases ha : u.active with
  | false =>
    refine ⟨{ u with unlogged := u.unlogged ++ [m] }, by unfold logD; rw [if_neg (by simp [ha])], hub, rfl, rfl, rfl, rfl, rfl, rfl, rfl, ha, nofun, fun _ => ⟨rfl, rfl⟩⟩
  | true =>
    have hp := ((C110_active hu).1 ha).1
    have hs : wStep u.w (.save m) = some (pushTask u.w (.save m)) := by
      unfold wStep
      rw [if_neg (by simp [hub, hdd])]
      simp only [hp]; rfl
    refine ⟨{ u with w := pushTask u.w (.save m) }, by unfold logD; rw [if_pos ha, hs]; rfl, hub, rfl, rfl, rfl, rfl, rfl, rfl, rfl, ha, fun _ => ⟨rfl, rfl⟩, nofun⟩

theorem inside_pc {w : WState M} {i : Nat} : onWorker w i = true ↔ (w.wpc = .rmWait i ∨ ∃ f, w.wpc = .clrWait i f) ∧ (w.sk i).exited = true := by
  unfold onWorker
  cases w.wpc <;> simp

/-- C110: when the code of the destructor of a real sink runs: after the thread of the sink has ended, and until it is destroyed; exactly one thread is in it, nobody refers to the sink any more, and it has processed all that was sent to it. -/
theorem C110_when {pre : List (DtLabel M)} {u : DtState M} {i : Nat} {m : M} (hu : dtRun .start pre = some u) (hub : u.w.ub = false) (hd : u.w.wpc ≠ .dead) (hw : u.waits = none) :
    ((dtStep u (.log (some i) m)).isSome = true ↔ i < u.w.n ∧ (u.w.sk i).exited = true ∧ (u.w.sk i).destroyed = false) ∧
    ((u.w.sk i).exited = true → owned u.w i = false ∧ received (u.w.sk i) = sentMsgs (u.w.sk i)) := by
  obtain ⟨n, _, hwr, _⟩ := C110_requests hu
  have iu := allInv_run hwr
  have hdd : u.w.wpc.isDead = false := by
    cases hw : u.w.wpc <;> first | rfl | exact absurd hw hd
  have lt : (u.w.sk i).stopSent = true → i < u.w.n := by
    intro hs
    rcases Nat.lt_or_ge i u.w.n with h | h
    · exact h
    · rw [iu.w.sinks.fresh i h] at hs; cases hs
  refine ⟨⟨fun h => ?_, fun ⟨_, he, hde⟩ => ?_⟩, fun he => ?_⟩
  · obtain ⟨v, hv⟩ := Option.isSome_iff_exists.1 h
    have hi : inSinkDtor u i = true := by
      match v, (dt_tr hv).2 with
      | _, .logged hi _ _ => exact hi i rfl
      | _, .lost hi _ => exact hi i rfl
    unfold inSinkDtor at hi
    rw [Bool.or_eq_true, Bool.and_eq_true] at hi
    rcases hi with ⟨hi, _⟩ | hi
    · obtain ⟨hp, he⟩ := inside_pc.1 hi
      have hwo : waitsOn u.w i = true := by
        unfold waitsOn
        rcases hp with hp | ⟨f, hp⟩ <;> simp [hp, pcWaits]
      obtain ⟨a, _, c, _⟩ := iu.w.sinks.waits i hwo
      exact ⟨a, he, c⟩
    · unfold onOther at hi
      rw [Bool.and_eq_true, Bool.or_eq_true] at hi
      obtain ⟨hr | hp, he⟩ := hi
      · obtain ⟨a, b⟩ := (iu.w.sinks.loc i).reap hr
        exact ⟨lt a, he, b⟩
      · have hwo : waitsOn u.w i = true := by
          unfold waitsOn
          rw [decide_eq_true_eq] at hp
          simp [hp, phaseWaits]
        obtain ⟨a, _, c, _⟩ := iu.w.sinks.waits i hwo
        exact ⟨a, he, c⟩
  · have hi : inSinkDtor u i = true := by
      unfold inSinkDtor onOther
      rw [Bool.or_eq_true]
      rcases iu.w.sinks.des i (linv_exit_stop (iu.w.sinks.loc i) he) hde with h | h
      · exact Or.inr (by simp [h, he])
      · unfold waitsOn at h
        rw [Bool.or_eq_true] at h
        rcases h with h | h
        · refine Or.inl ?_
          rw [hw, Bool.and_eq_true]
          refine ⟨inside_pc.2 ⟨?_, he⟩, rfl⟩
          cases hp : u.w.wpc <;> rw [hp] at h <;> simp [pcWaits] at h <;> simp [h]
        · refine Or.inr ?_
          have : u.w.phase = .waitSink i := by
            cases hp : u.w.phase <;> rw [hp] at h <;> simp [phaseWaits] at h <;> simp [h]
          simp [this, he]
    obtain ⟨v, hv, _⟩ := C110_log m hu hub hd hi
    rw [hv]; rfl
  · have hs := linv_exit_stop (iu.w.sinks.loc i) he
    have := iu.w.sinks.own i (lt hs)
    rw [hs] at this
    exact ⟨this, received_exited iu he⟩

/-- The worker thread is busy with a fatal message. -/
def FatalPc : WPc M → Prop
  | .sending (.fatal _) _ => True
  | .clearing true => True
  | .clrWait _ true => True
  | .dead => True
  | _ => False

theorem fatalPc_tr {s s' : WState M} (ht : Tr s s') (h : FatalPc s.wpc → ¬ NoFatal s) :
    FatalPc s'.wpc → ¬ NoFatal s' := by
  cases ht with
  | tFatal m r hp hq => intro _ hn; exact hn m (by simp)
  | tSaveNone m r hp hq ha => intro hf; simp only [hp, FatalPc] at hf
  | tSave m r hp hq ha => intro hf; simp only [FatalPc] at hf
  | send x i rest hp => intro hf; refine h ?_; rw [hp]; cases x <;> first | exact hf | exact hf.elim
  | sendEndF m hp => intro _; refine h ?_; rw [hp]; trivial
  | clrEndF hp ha => intro _; refine h ?_; rw [hp]; trivial
  | clrDrop f i r hp ha ho => intro hf; refine h ?_; rw [hp]; cases f <;> first | exact hf | trivial
  | clrReap i f hp he => intro hf; refine h ?_; rw [hp]; cases f <;> first | exact hf | trivial
  | tRmYes => intro hf; exact hf.elim
  | tClear => intro hf; exact hf.elim
  | tDone => intro hf; exact hf.elim
  | sendEnd => intro hf; exact hf.elim
  | rmKeep => intro hf; exact hf.elim
  | rmDrop => intro hf; exact hf.elim
  | rmReap => intro hf; exact hf.elim
  | clrEnd => intro hf; exact hf.elim
  | _ => exact h

theorem fatalPc_run {ls : List (WLabel M)} {s : WState M} (h : wRun .start ls = some s) : FatalPc s.wpc → ¬ NoFatal s :=
  wrun_induct (P := fun s => FatalPc s.wpc → ¬ NoFatal s) (fun _ _ _ a hs => fatalPc_tr (tr_of_step hs).2.2 a) ls .start s (fun hf => False.elim hf) h

/-- The tasks give nothing to sinks. -/
def Silent (t : List (WTask M)) : Prop := ∀ m, WTask.save m ∉ t ∧ WTask.fatal m ∉ t

theorem silent_nil : Silent ([] : List (WTask M)) := fun _ => ⟨nofun, nofun⟩

/-- No entry and no fatal message is handed to the worker. -/
theorem silent_step {s s' : WState M} {l : WLabel M} (h : wStep s l = some s') (hl : ∀ m, l ≠ .save m) (hf : ∀ m, l ≠ .fatal m) (hk : ∀ i m, l ≠ .sinkFatal i m) :
    ∃ t, s'.sub = s.sub ++ t ∧ Silent t := by
  unfold wStep at h
  split at h
  · cases h
  · cases l with
    | save m => exact absurd rfl (hl m)
    | fatal m => exact absurd rfl (hf m)
    | add =>
      simp only [Option.some.injEq] at h; subst h
      unfold addStep beginCall
      repeat' split
      all_goals first | exact ⟨[], (List.append_nil _).symm, silent_nil⟩ | exact ⟨_, rfl, by simp [Silent]⟩
    | remove i =>
      simp only at h; split at h
      · cases h; unfold beginCall; repeat' split
        all_goals first | exact ⟨[], (List.append_nil _).symm, silent_nil⟩ | exact ⟨_, rfl, by simp [Silent]⟩
      · cases h
    | clear =>
      simp only [Option.some.injEq] at h; subst h
      unfold beginCall
      repeat' split
      all_goals first | exact ⟨[], (List.append_nil _).symm, silent_nil⟩ | exact ⟨_, rfl, by simp [Silent]⟩
    | ret k =>
      simp only [retStep] at h
      split at h
      · cases h
      · split at h
        · split at h
          · cases h; unfold clientDrop; split <;> exact ⟨[], (List.append_nil _).symm, silent_nil⟩
          · cases h; exact ⟨[], (List.append_nil _).symm, silent_nil⟩
        · cases h
    | hold i => simp only at h; split at h <;> cases h; exact ⟨[], (List.append_nil _).symm, silent_nil⟩
    | holdFail i c => simp only at h; split at h <;> cases h; exact ⟨[], (List.append_nil _).symm, silent_nil⟩
    | call i c => simp only at h; split at h <;> cases h; exact ⟨[], (List.append_nil _).symm, silent_nil⟩
    | release i =>
      simp only at h; split at h <;> cases h
      unfold clientDrop; split <;> exact ⟨[], (List.append_nil _).symm, silent_nil⟩
    | reap i => simp only at h; split at h <;> cases h; exact ⟨[], (List.append_nil _).symm, silent_nil⟩
    | dtor =>
      simp only [dtorStep] at h
      repeat' split at h
      all_goals first | (cases h; done) | (cases h; exact ⟨[], (List.append_nil _).symm, silent_nil⟩) | (cases h; exact ⟨_, rfl, by simp [Silent]⟩)
    | work =>
      simp only [workStep, takeTask] at h
      repeat' split at h
      all_goals first | (cases h; done) | (cases h; exact ⟨[], (List.append_nil _).symm, silent_nil⟩)
    | sinkPop i =>
      simp only [sinkPop] at h
      split at h
      · split at h <;> cases h; exact ⟨[], (List.append_nil _).symm, silent_nil⟩
      · cases h
    | sinkFin i =>
      simp only [sinkFin] at h
      split at h
      · split at h <;> cases h <;> exact ⟨[], (List.append_nil _).symm, silent_nil⟩
      · cases h
    | sinkFatal i m => exact absurd rfl (hk i m)

theorem inactive_sub {s s' : DtState M} {l : DtLabel M} (h : DtTr s l s') (ha : s.active = false) : ∃ t, s'.w.sub = s.w.sub ++ t ∧ Silent t := by
  cases h with
  | @base l w hk hb =>
    exact silent_step hb (fun m e => by subst e; cases hk) (fun m e => by subst e; simp only [dtOk, ha] at hk; cases hk)
      (fun i m e => by subst e; simp only [dtOk, ha] at hk; cases hk)
  | logged _ ht => rw [ha] at ht; cases ht
  | lost => exact ⟨[], (List.append_nil _).symm, silent_nil⟩
  | @sync _ c _ _ _ hb => exact silent_step hb (fun m => by cases c <;> nofun) (fun m => by cases c <;> nofun) (fun i m => by cases c <;> nofun)
  | back _ hb => exact silent_step hb nofun nofun nofun

/-- Requests that give nothing change nothing. -/
theorem gets_quiet (j : Nat) (a t : List (Req M)) (h : ∀ r ∈ t, r.gives = []) : gets j (a ++ t) = gets j a ∧ errs (a ++ t) = errs a := by
  by_cases hf : ∃ y ∈ a, y.final = true
  · rw [gets, gets, errs, errs, served_final a t hf]; exact ⟨rfl, rfl⟩
  · have hf' : ∀ y ∈ a, y.final = false := by
      intro y hy
      cases hy' : y.final
      · rfl
      · exact absurd ⟨y, hy, hy'⟩ hf
    have h' : ∀ r ∈ served t, r.gives = [] := fun r hr => h r (served_sub _ _ hr)
    have e1 : ∀ (l : List (Req M)), (∀ r ∈ l, r.gives = []) → ∀ pre, getsFrom j pre l = [] ∧ errsFrom pre l = [] := by
      intro l
      induction l with
      | nil => intro _ pre; exact ⟨rfl, rfl⟩
      | cons r l ih =>
        intro hl pre
        have hr := hl r (by simp)
        obtain ⟨i1, i2⟩ := ih (fun x hx => hl x (by simp [hx])) (pre ++ [r])
        refine ⟨by rw [getsFrom, i1, hr]; simp, ?_⟩
        rw [errsFrom, i2]
        cases r <;> first | rfl | (simp [Req.gives] at hr)
    rw [gets, gets, errs, errs, served_noFinal a t hf', served_self a hf', getsFrom_append, errsFrom_append, (e1 _ h' _).1, (e1 _ h' _).2]
    exact ⟨List.append_nil _, List.append_nil _⟩

/-- C110, where it fails: destructors of sinks that run because the worker is being destroyed, or because of a fatal event, and all that run later. Nothing that is logged in them, or by others from now on, is handed to the worker: whatever
follows, sinks and stderr get nothing but what the requests made before give; only the first of these entries in the life of the process is printed on stderr. -/
theorem C110_lost {pre post : List (DtLabel M)} {u s : DtState M} (hu : dtRun .start pre = some u)
    (hw : u.w.phase ≠ .notStarted ∨ ∃ i, u.w.wpc = .clrWait i true) (h : dtRun u post = some s) :
    s.unlogged = u.unlogged ++ loggedBy post ∧ s.printed = (u.printed <|> (loggedBy post).head?) ∧
    ∃ n, Cut .start pre n ∧ (∀ j, received (s.w.sk j) <+: gets j (handed 0 0 (asSeen n 0 0 pre))) ∧ s.w.err.map toErr <+: errs (handed 0 0 (asSeen n 0 0 pre)) := by
  obtain ⟨n, hc, hwr, _⟩ := C110_requests hu
  have ha : u.active = false := by
    cases ha : u.active with
    | false => rfl
    | true =>
      obtain ⟨h1, h2⟩ := (C110_active hu).1 ha
      rcases hw with hw | ⟨i, hw⟩
      · exact absurd h1 hw
      · exact absurd h2 (fatalPc_run hwr (by rw [hw]; trivial))
  obtain ⟨n', hc', hB, hun⟩ := dt_requests post (u.waits.getD 0) h (fun k e => by rw [e]; rfl)
  have hn' := cut_off hc' ha
  subst hn'
  rw [List.drop_zero] at hun
  refine ⟨hun, ?_, n, hc, ?_⟩
  · unfold DtState.printed
    rw [hun]
    cases u.unlogged <;> simp
  have key : s.active = false ∧ ∃ t, s.w.sub = u.w.sub ++ t ∧ Silent t := by
    refine dt_induct (P := fun s => s.active = false ∧ ∃ t, s.w.sub = u.w.sub ++ t ∧ Silent t) ?_ post ⟨ha, [], by simp, silent_nil⟩ h
    rintro x l y ⟨hx, t, ht, hm⟩ htr
    obtain ⟨t', ht', hm'⟩ := inactive_sub htr hx
    exact ⟨inactive_stays htr hx, t ++ t', by rw [ht', ht, List.append_assoc], fun m => by simp [hm m, hm' m]⟩
  obtain ⟨_, t, ht, hm⟩ := key
  have hall := wRun_append' hwr hB
  have e : handed 0 0 (asSeen n 0 0 pre) ++ t.map req = handed 0 0 (asSeen n 0 0 pre ++ asSeen 0 u.w.calls.length (u.waits.getD 0) post) := by
    rw [← sub_handed hall, ← sub_handed hwr, ht, List.map_append]
  have hq : ∀ r ∈ t.map req, r.gives = [] := by
    intro r hr
    obtain ⟨x, hx, rfl⟩ := List.mem_map.1 hr
    cases x <;> first | rfl | exact absurd hx (hm _).1 | exact absurd hx (hm _).2
  refine ⟨fun j => ?_, ?_⟩
  · rw [← (gets_quiet j _ _ hq).1, e]; exact C02_prefix hall j
  · rw [← (gets_quiet 0 _ _ hq).2, e]; exact C55_prefix hall

/-! ### Synchronous calls in destructors -/

/-- C110: without `_bg` (the destructor of the worker is past its own `removeAllSinks`) a synchronous call in a destructor returns at once. -/
theorem C110_returns {u v : DtState M} {i : Nat} {c : DtSync} (hb : u.w.phase.bgNull = true) (hv : dtStep u (.sync i c) = some v) (hub : v.w.ub = false) :
    ∃ s, dtStep v .back = some s ∧ s.waits = none := by
  obtain ⟨⟨hu0, hd0⟩, ht⟩ := dt_tr hv
  have hstep : ∃ w, v = { u with w := w, waits := some u.w.calls.length } ∧ wStep u.w (DtSync.label c) = some w := by
    match v, ht with
    | _, .sync _ _ hs => exact ⟨_, rfl, hs⟩
  obtain ⟨w, rfl, hs⟩ := hstep
  have hget : ∃ k, w.calls[u.w.calls.length]? = some ⟨k, none, false⟩ ∧ w.wpc = u.w.wpc := by
    have hnr : u.w.phase ≠ .returned := by
      intro e
      unfold wStep at hs
      rw [if_neg (by simp [hu0, hd0])] at hs
      cases c with
      | add =>
        simp only [DtSync.label, addStep, e, if_true, Option.some.injEq] at hs; subst hs; cases hub
      | remove j =>
        simp only [DtSync.label, beginCall, e, if_true] at hs
        split at hs <;> cases hs; cases hub
      | clear =>
        simp only [DtSync.label, beginCall, e, if_true, Option.some.injEq] at hs; subst hs; cases hub
    unfold wStep at hs
    rw [if_neg (by simp [hu0, hd0])] at hs
    cases c with
    | add =>
      simp only [DtSync.label, addStep, beginCall, if_neg hnr, hb, if_true, Option.some.injEq] at hs; subst hs
      exact ⟨.add u.w.n, by simp, rfl⟩
    | remove j =>
      simp only [DtSync.label, beginCall, if_neg hnr, hb, if_true] at hs
      split at hs <;> cases hs
      exact ⟨.remove j, by simp, rfl⟩
    | clear =>
      simp only [DtSync.label, beginCall, if_neg hnr, hb, if_true, Option.some.injEq] at hs; subst hs
      exact ⟨.clear, by simp, rfl⟩
  obtain ⟨k, hk, hpc⟩ := hget
  have hr : ∃ w', retStep w u.w.calls.length = some w' := by
    unfold retStep
    rw [hk]
    simp only [ready, and_self, if_true]
    cases k <;> exact ⟨_, rfl⟩
  obtain ⟨w', hw'⟩ := hr
  refine ⟨{ u with w := w', waits := none }, ?_, rfl⟩
  unfold dtStep
  rw [if_neg (by simp [hpc, hd0]; exact hub)]
  have : wStep w (.ret u.w.calls.length) = some w' := by
    unfold wStep
    rw [if_neg (by simp [hpc, hd0]; exact hub)]
    exact hw'
  simp only [this]
  rfl

theorem call_kept {s s' : WState M} {l : WLabel M} {k : Nat} {d : WCall} (h : wStep s l = some s') (hl : l ≠ .ret k) (hd : s.calls[k]? = some d) : s'.calls[k]? = some d := by
  have more : ∀ x : WCall, (s.calls ++ [x])[k]? = some d := fun x => by rw [List.getElem?_append_left (List.getElem?_eq_some_iff.1 hd).1, hd]
  unfold wStep at h
  split at h
  · cases h
  · cases l with
    | ret j =>
      have hj : j ≠ k := fun e => hl (by rw [e])
      simp only [retStep] at h
      split at h
      · cases h
      · split at h
        · split at h
          · cases h
            unfold clientDrop; split <;> (show (s.calls.set _ _)[k]? = _; rw [List.getElem?_set_ne hj]; exact hd)
          · cases h
            show (s.calls.set _ _)[k]? = _; rw [List.getElem?_set_ne hj]; exact hd
        · cases h
    | add =>
      simp only [Option.some.injEq] at h; subst h
      unfold addStep beginCall
      repeat' split
      all_goals first | exact hd | exact more _
    | remove i =>
      simp only at h; split at h
      · cases h; unfold beginCall; repeat' split
        all_goals first | exact hd | exact more _
      · cases h
    | clear =>
      simp only [Option.some.injEq] at h; subst h
      unfold beginCall
      repeat' split
      all_goals first | exact hd | exact more _
    | save m => simp only at h; split at h <;> (cases h; exact hd)
    | fatal m => simp only at h; split at h <;> (cases h; exact hd)
    | hold i => simp only at h; split at h <;> cases h; exact hd
    | holdFail i c => simp only at h; split at h <;> cases h; exact hd
    | call i c => simp only at h; split at h <;> cases h; exact hd
    | release i =>
      simp only at h; split at h <;> cases h
      unfold clientDrop; split <;> exact hd
    | reap i => simp only at h; split at h <;> cases h; exact hd
    | dtor =>
      simp only [dtorStep] at h
      repeat' split at h
      all_goals first | (cases h; done) | (cases h; exact hd)
    | work =>
      simp only [workStep, takeTask] at h
      repeat' split at h
      all_goals first | (cases h; done) | (cases h; exact hd)
    | sinkPop i =>
      simp only [sinkPop] at h
      split at h
      · split at h <;> cases h; exact hd
      · cases h
    | sinkFin i =>
      simp only [sinkFin] at h
      split at h
      · split at h <;> cases h <;> exact hd
      · cases h
    | sinkFatal i m =>
      simp only at h
      split at h
      · split at h <;> (cases h; exact hd)
      · cases h

/-- While the worker thread waits in a call that is not ready, it does nothing else. -/
theorem waiting_step {s s' : DtState M} {l : DtLabel M} {k : Nat} (hs : s.waits = some k) (hl : l ≠ .back) (h : DtTr s l s') :
    s'.waits = some k ∧ s'.w.wpc = s.w.wpc ∧ s'.w.completed = s.w.completed := by
  cases h with
  | @base l w hk hb =>
    have hl : l.isWork = false := by
      cases l <;> first | rfl | (simp only [dtOk, hs] at hk; cases hk)
    exact ⟨hs, nowork_step hl hb⟩
  | logged _ _ hb => exact ⟨hs, nowork_step rfl hb⟩
  | lost => exact ⟨hs, rfl, rfl⟩
  | sync _ hn => rw [hs] at hn; cases hn
  | back => exact absurd rfl hl

/-- C110: while a destructor on the worker thread waits in a synchronous call, the worker thread stays inside that destructor and the call has not returned; only the destructor takes its result. -/
theorem C110_waits {pre : List (DtLabel M)} {u : DtState M} {k : Nat} (hu : dtRun .start pre = some u) (hub : u.w.ub = false) (hk : u.waits = some k) :
    (∃ i, u.w.wpc = .rmWait i ∨ ∃ f, u.w.wpc = .clrWait i f) ∧ ∃ d, u.w.calls[k]? = some d ∧ d.returned = false := by
  refine dt_induct (P := fun u => u.w.ub = false → ∀ k, u.waits = some k → (∃ i, u.w.wpc = .rmWait i ∨ ∃ f, u.w.wpc = .clrWait i f) ∧ ∃ d, u.w.calls[k]? = some d ∧ d.returned = false)
    ?_ pre (fun _ _ h => (by cases h)) hu hub k hk
  intro s l s' hi ht hub' k hk'
  cases ht with
  | @base l w hk hb =>
    have hk2 : s.waits = some k := hk'
    have hl : l.isWork = false := by
      cases l <;> first | rfl | (have h0 : s.waits.isNone = true := hk; rw [hk2] at h0; cases h0)
    have hs0 : s.w.ub = false := by
      unfold wStep at hb; split at hb
      · cases hb
      · rename_i hn; simpa using fun e => hn (Or.inl e)
    obtain ⟨hp, d, hd, hr⟩ := hi hs0 k hk2
    refine ⟨by rw [(nowork_step hl hb).1]; exact hp, d, call_kept hb (fun e => ?_) hd, hr⟩
    subst e
    have h0 : decide (s.waits ≠ some k) = true := hk
    rw [hk2] at h0; simp at h0
  | @logged _ m w _ _ hb =>
    have hs0 : s.w.ub = false := by
      unfold wStep at hb; split at hb
      · cases hb
      · rename_i hn; simpa using fun e => hn (Or.inl e)
    obtain ⟨hp, d, hd, hr⟩ := hi hs0 k hk'
    exact ⟨by rw [(nowork_step (l := .save m) rfl hb).1]; exact hp, d, call_kept hb nofun hd, hr⟩
  | lost => exact hi hub' k hk'
  | @sync i c w ho hn hb =>
    cases hk'
    have hl : (DtSync.label c : WLabel M).isWork = false := by cases c <;> rfl
    refine ⟨⟨i, by rw [(nowork_step hl hb).1]; exact (inside_pc.1 ho).1⟩, ?_⟩
    have hub' : w.ub = false := hub'
    unfold wStep at hb
    split at hb
    · cases hb
    cases c with
    | add =>
      simp only [DtSync.label, Option.some.injEq] at hb; subst hb
      unfold addStep beginCall at hub' ⊢
      repeat' split
      all_goals first | exact ⟨_, by simp; rfl, rfl⟩ | simp_all
    | remove j =>
      simp only [DtSync.label] at hb
      split at hb <;> cases hb
      unfold beginCall at hub' ⊢
      repeat' split
      all_goals first | exact ⟨_, by simp; rfl, rfl⟩ | simp_all
    | clear =>
      simp only [DtSync.label, Option.some.injEq] at hb; subst hb
      unfold beginCall at hub' ⊢
      repeat' split
      all_goals first | exact ⟨_, by simp; rfl, rfl⟩ | simp_all
  | back => cases hk'

/-- The worker thread waits for a task that only the worker thread can run. -/
structure Waiting (u s : DtState M) : Prop where
  waits : s.waits = some u.w.calls.length
  wpc : s.w.wpc = u.w.wpc
  completed : s.w.completed = u.w.completed
  call : ∃ k b, s.w.calls[u.w.calls.length]? = some ⟨k, some u.w.sub.length, b⟩

theorem waiting_back {u s : DtState M} (iu : AllInv u.w) (is : AllInv s.w) (hne : u.w.wpc ≠ .ended) (h : Waiting u s) (s' : DtState M) : ¬ DtTr s .back s' := by
  intro ht
  have hb : ∃ w, wStep s.w (.ret u.w.calls.length) = some w := by
    match s', ht with
    | _, .back hk hb => rw [h.waits] at hk; cases hk; exact ⟨_, hb⟩
  obtain ⟨w, hb⟩ := hb
  obtain ⟨k, b, hc⟩ := h.call
  unfold wStep at hb
  split at hb
  · cases hb
  simp only [retStep, hc] at hb
  split at hb
  · rename_i hr
    have hr := hr.2
    unfold ready at hr
    simp only [Bool.or_eq_true, decide_eq_true_eq] at hr
    have hle := iu.w.book.le
    unfold started at hle
    rcases hr with hr | hr
    · rw [h.completed] at hr; omega
    · exact hne (h.wpc ▸ (is.w.book.gone hr).2)
  · cases hb

theorem waiting_keep {u s s' : DtState M} {l : DtLabel M} (iu : AllInv u.w) (is : AllInv s.w) (hne : u.w.wpc ≠ .ended) (h : Waiting u s) (ht : DtTr s l s') :
    Waiting u s' ∧ AllInv s'.w := by
  have hl : l ≠ .back := by rintro rfl; exact waiting_back iu is hne h s' ht
  obtain ⟨h1, h2, h3⟩ := waiting_step h.waits hl ht
  obtain ⟨k, b, hc⟩ := h.call
  have grow : ∀ {w : WState M} {x : WLabel M}, wStep s.w x = some w → (∃ k b, w.calls[u.w.calls.length]? = some ⟨k, some u.w.sub.length, b⟩) ∧ AllInv w := by
    intro w x hx
    obtain ⟨b', hb', _⟩ := (grows_tr (tr_of_step hx).2.2 is.w.sinks).calls _ _ hc
    exact ⟨⟨k, b', hb'⟩, allInv_step is hx⟩
  have hg : (∃ k b, s'.w.calls[u.w.calls.length]? = some ⟨k, some u.w.sub.length, b⟩) ∧ AllInv s'.w := by
    cases ht with
    | base _ hb => exact grow hb
    | logged _ _ hb => exact grow hb
    | lost => exact ⟨h.call, is⟩
    | sync _ _ hb => exact grow hb
    | back _ hb => exact grow hb
  exact ⟨⟨h1, h2.trans h.wpc, h3.trans h.completed, hg.1⟩, hg.2⟩

theorem sync_begins {u : DtState M} {c : DtSync} {w : WState M} (hb : u.w.phase.bgNull = false) (hs : wStep u.w (DtSync.label c) = some w) :
    w.wpc = u.w.wpc ∧ w.completed = u.w.completed ∧ ∃ k b, w.calls[u.w.calls.length]? = some ⟨k, some u.w.sub.length, b⟩ := by
  have hnr : u.w.phase ≠ .returned := by intro e; rw [e] at hb; cases hb
  have hl : (DtSync.label c : WLabel M).isWork = false := by cases c <;> rfl
  refine ⟨(nowork_step hl hs).1, (nowork_step hl hs).2, ?_⟩
  unfold wStep at hs
  split at hs
  · cases hs
  cases c with
  | add =>
    simp only [DtSync.label, addStep, beginCall, if_neg hnr, hb, Bool.false_eq_true, if_false, Option.some.injEq] at hs; subst hs
    exact ⟨.add u.w.n, false, by simp [pushTask]⟩
  | remove j =>
    simp only [DtSync.label, beginCall, if_neg hnr, hb, Bool.false_eq_true, if_false] at hs
    split at hs <;> cases hs
    exact ⟨.remove j, false, by simp [pushTask]⟩
  | clear =>
    simp only [DtSync.label, beginCall, if_neg hnr, hb, Bool.false_eq_true, if_false, Option.some.injEq] at hs; subst hs
    exact ⟨.clear, false, by simp [pushTask]⟩

/-- C110, where it fails: `addSink`, `removeSink` or `removeAllSinks` in the destructor of a sink that the worker thread destroys. Whatever follows, the call never returns; no sink ever gets more than the requests give that the worker had begun; a fatal event
does not end the process; the destructor of the worker does not return; no other synchronous call that waits for the worker, or that begins later and finds `_bg`, returns. -/
theorem C110_hangs {pre post : List (DtLabel M)} {u s : DtState M} {i : Nat} {c : DtSync} (hu : dtRun .start pre = some u) (hb : u.w.phase.bgNull = false)
    (h : dtRun u (.sync i c :: post) = some s) :
    dtStep s .back = none ∧ .back ∉ post ∧ dtStep s (.base .work) = none ∧ s.w.wpc ≠ .dead ∧ s.w.phase ≠ .returned ∧
    (∃ n, Cut .start pre n ∧ ∀ j, received (s.w.sk j) <+: gets j ((handed 0 0 (asSeen n 0 0 pre)).take (started u.w))) ∧
    ∀ (k : Nat) (d : WCall) (p : Nat), s.w.calls[k]? = some d → d.pos = some p → u.w.completed ≤ p → d.returned = false := by
  obtain ⟨n, hcut, hwr, _⟩ := C110_requests hu
  have iu := allInv_run hwr
  obtain ⟨v, hv, hr⟩ := Option.bind_eq_some_iff.1 h
  obtain ⟨⟨hub0, hd0⟩, htv⟩ := dt_tr hv
  have hv1 : ∃ w, v = { u with w := w, waits := some u.w.calls.length } ∧ onWorker u.w i = true ∧ wStep u.w (DtSync.label c) = some w := by
    match v, htv with
    | _, .sync ho _ hs => exact ⟨_, rfl, ho, hs⟩
  obtain ⟨w, rfl, ho, hs⟩ := hv1
  have hne : u.w.wpc ≠ .ended := by
    intro e; unfold onWorker at ho; rw [e] at ho; cases ho
  have hnd : u.w.wpc ≠ .dead := by
    intro e; rw [e] at hd0; cases hd0
  obtain ⟨e1, e2, e3⟩ := sync_begins hb hs
  have start : Waiting u { u with w := w, waits := some u.w.calls.length } := ⟨rfl, e1, e2, e3⟩
  have key : ∀ (ls : List (DtLabel M)) {x y : DtState M}, Waiting u x ∧ AllInv x.w → dtRun x ls = some y → (Waiting u y ∧ AllInv y.w) ∧ .back ∉ ls := by
    intro ls
    induction ls with
    | nil => intro x y hx hy; cases hy; exact ⟨hx, nofun⟩
    | cons l ls ih =>
      intro x y hx hy
      obtain ⟨z, hz, hy⟩ := Option.bind_eq_some_iff.1 hy
      obtain ⟨a, b⟩ := ih (waiting_keep iu hx.2 hne hx.1 (dt_tr hz).2) hy
      refine ⟨a, fun hm => ?_⟩
      rcases List.mem_cons.1 hm with hm | hm
      · subst hm; exact waiting_back iu hx.2 hne hx.1 z (dt_tr hz).2
      · exact b hm
  obtain ⟨⟨hW, it⟩, hnb⟩ := key post ⟨start, allInv_step iu hs⟩ hr
  have hg : s.w.phase.queueGone = false := by
    cases hg : s.w.phase.queueGone with
    | false => rfl
    | true => exact absurd (hW.wpc ▸ (it.w.book.gone hg).2) hne
  obtain ⟨B, hB⟩ := dt_tail h
  have hall := wRun_append' hwr hB
  refine ⟨?_, hnb, ?_, by rw [hW.wpc]; exact hnd, fun e => (by rw [e] at hg; cases hg), ⟨n, hcut, fun j => ?_⟩, fun k d p hk hp hle => ?_⟩
  · cases hs' : dtStep s .back with
    | none => rfl
    | some s' => exact absurd (dt_tr hs').2 (waiting_back iu it hne hW s')
  · cases hs' : dtStep s (.base .work) with
    | none => rfl
    | some s' =>
      exfalso
      have : dtOk s .work = true := by
        match s', (dt_tr hs').2 with
        | _, .base hk _ => exact hk
      simp only [dtOk, hW.waits] at this
      cases this
  · have hst : started s.w = started u.w := by unfold started; rw [hW.wpc, hW.completed]
    have f1 := it.w.deliver.got j
    have f2 : reqs s.w (started s.w) = (handed 0 0 (asSeen n 0 0 pre)).take (started u.w) := by
      obtain ⟨x, hx⟩ := handed_append hwr hB
      rw [reqs_handed hall, hx, hst, List.take_append_of_le_length]
      rw [← sub_handed hwr, List.length_map]; exact iu.w.book.le
    rw [f2] at f1
    exact (received_prefix _).trans ⟨_, f1⟩
  · cases hcr : d.returned with
    | false => rfl
    | true =>
      exfalso
      have := it.w.calls.ret d (List.mem_of_getElem? hk) hcr
      unfold ready at this
      rw [hp] at this
      simp only [hg, Bool.or_false, decide_eq_true_eq, hW.completed] at this
      omega

/-! ### Concrete programs -/

/-- Two sinks are attached. -/
def pairAttached : List (DtLabel Nat) := [.base .add, .base .work, .base (.ret 0), .base .add, .base .work, .base (.ret 1)]

/-- Sink 0 is removed; the worker thread is in the destructor of its real sink. -/
def removing : List (DtLabel Nat) := pairAttached ++ [.base (.remove 0), .base .work, .base .work, .base (.sinkPop 0), .base (.sinkFin 0)]

/-- The worker is being destroyed; its thread is in the destructor of the real sink 0, sink 1 is still in the list. -/
def destroying : List (DtLabel Nat) := pairAttached ++ [.base .dtor, .base .work, .base .work, .base (.sinkPop 0), .base (.sinkFin 0)]

/-- A fatal event: its thread is in the destructor of the real sink 0. -/
def fatalEnding : List (DtLabel Nat) := pairAttached ++
  [.base (.fatal 9), .base .work, .base .work, .base .work, .base .work, .base .work, .base (.sinkPop 0), .base (.sinkFin 0), .base (.sinkPop 0), .base (.sinkFin 0)]

/-- The hypotheses of `C110_partial` and `C110_log`: the destructor of sink 0, removed by a client, logs 7; sink 1 gets it. -/
example : ∃ u s, dtRun .start removing = some u ∧ inSinkDtor u 0 = true ∧ inSinkDtor u 1 = false ∧ u.w.ub = false ∧ u.w.wpc ≠ .dead ∧ u.w.phase = .notStarted ∧ u.w.err = [] ∧
    dtRun u [.log (some 0) 7, .base .work, .base .work, .base .work, .base .work, .base (.sinkPop 1), .base (.sinkFin 1)] = some s ∧ s.w.ub = false ∧ settled s.w ∧
    (s.w.sk 1).q = [] ∧ (s.w.sk 1).running = none ∧ received (s.w.sk 1) = [.log 7] ∧ received (s.w.sk 0) = [] ∧ s.unlogged = [] :=
  ⟨_, _, rfl, rfl, rfl, rfl, nofun, rfl, rfl, rfl, rfl, Or.inl ⟨rfl, rfl⟩, rfl, rfl, rfl, rfl, rfl⟩

/-- The requests of that program, for `C110_requests`: one entry, after the removal. -/
example : asSeen 1 0 0 (removing ++ [.log (some 0) 7]) = asSeen 1 0 0 removing ++ [.save 7] ∧ handed 0 0 (asSeen 1 0 0 (removing ++ [.log (some 0) 7])) =
    [.attach 0, .attach 1, .detach 0, .log 7] ∧ loggedBy (removing ++ [.log (some 0) 7]) = [7] := ⟨rfl, rfl, rfl⟩

/-- A destructor on a client's thread: the handle keeps sink 0 alive beyond its removal. The client's own LOG in the destructor is served. -/
example : ∃ u s, dtRun .start (pairAttached ++ [.base (.hold 0), .base (.remove 0), .base .work, .base .work, .base (.ret 2), .base (.release 0), .base (.sinkPop 0), .base (.sinkFin 0)]) = some u ∧
    inSinkDtor u 0 = true ∧ dtRun u [.log (some 0) 7, .base (.reap 0), .base .work, .base .work, .base .work, .base (.sinkPop 1), .base (.sinkFin 1)] = some s ∧ received (s.w.sk 1) = [.log 7] ∧
    (s.w.sk 0).destroyed = true :=
  ⟨_, _, rfl, rfl, rfl, rfl, rfl⟩

/-- The hypotheses of `C110_lost`, both ways. -/
example : ∃ u v, dtRun .start destroying = some u ∧ inSinkDtor u 0 = true ∧ u.w.phase ≠ .notStarted ∧ dtRun .start fatalEnding = some v ∧ inSinkDtor v 0 = true ∧
    v.w.wpc = .clrWait 0 true ∧ v.active = false ∧ ∃ s, dtRun v [.log (some 0) 7] = some s ∧ s.unlogged = [7] :=
  ⟨_, _, rfl, rfl, nofun, rfl, rfl, rfl, rfl, _, rfl, rfl⟩

/-- The hypotheses of `C110_returns`: a sink that was attached while the worker was being destroyed is removed by its client; `_bg` is null when its destructor runs. -/
example : ∃ u v : DtState Nat, dtRun .start [.base .dtor, .base .add, .base (.remove 0), .base .work, .base .work, .base .dtor, .base .work, .base (.ret 0), .base .work, .base .work, .base (.sinkPop 0),
      .base (.sinkFin 0)] = some u ∧ u.w.phase.bgNull = true ∧ (dtStep u (.sync 0 .add) = some v ∧ v.w.ub = false ∧ v.waits = some 2) :=
  ⟨_, _, rfl, rfl, rfl, rfl, rfl⟩

/-- C110 fails: the destructors of sinks cannot log when the worker is destroyed. The destructor of sink 0 logs 7 and 8 while sink 1 is attached; the worker is destroyed in the end, sink 1 has neither, and stderr does not have 8. -/
theorem C110_negation : ∃ (u s : DtState Nat), dtRun .start destroying = some u ∧ inSinkDtor u 0 = true ∧ u.w.att = [1] ∧
    dtRun u [.log (some 0) 7, .log (some 0) 8, .base .work, .base .work, .base (.sinkPop 1), .base (.sinkFin 1), .base .work, .base .work, .base .dtor, .base .work, .base .dtor, .base .dtor] = some s ∧
    s.w.phase = .returned ∧ received (s.w.sk 1) = [] ∧ s.w.err = [] ∧ s.printed = some 7 :=
  ⟨_, _, rfl, rfl, rfl, rfl, rfl, rfl, rfl, rfl⟩

/-- C110 fails: a destructor that adds a sink. Whatever happens afterwards, nothing that is logged from then on reaches sink 1. -/
theorem C110_add_negation : ∃ (u : DtState Nat), dtRun .start removing = some u ∧ (∃ s, dtRun u [.sync 0 .add, .log none 5] = some s ∧ s.w.ub = false) ∧
    ∀ post s, dtRun u (.sync 0 .add :: post) = some s → .back ∉ post ∧ received (s.w.sk 1) = [] ∧ s.w.phase ≠ .returned := by
  refine ⟨_, rfl, ⟨_, rfl, rfl⟩, fun post s h => ?_⟩
  obtain ⟨_, h2, _, _, h5, ⟨n, hc, h6⟩, _⟩ := C110_hangs (pre := removing) rfl rfl h
  refine ⟨h2, ?_, h5⟩
  have hn : n = 0 := Nat.le_zero.1 hc.le
  subst hn
  exact List.prefix_nil.1 (h6 1)

end G3.Props
