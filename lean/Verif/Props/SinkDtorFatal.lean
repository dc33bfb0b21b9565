import Verif.Spec.SinkDtorFatal
import Verif.Props.SinkDtor
import Verif.Props.WorkerLive
/-
C111: fatal events in the destructors of sinks.
-/
namespace G3.Props
open G3 G3.Spec

variable {M : Type}

/-- The steps, case by case. -/
inductive DxTr : DxState M → DxLabel M → DxState M → Prop
  | plain {s l d} : dxAwake s l = true → dtStep s.d l = some d → DxTr s (.plain l) { s with d := d }
  | sleeps {s i m} : inSinkDtor s.d i = true → sleepsIn s i = false → s.signalled = true → DxTr s (.fatal i true m) (goSleep s i)
  | handed {s i sig m d} : inSinkDtor s.d i = true → sleepsIn s i = false → (sig && s.signalled) = false → s.d.active = true → dtStep s.d (.base (.fatal m)) = some d →
      DxTr s (.fatal i sig m) { goSleep s i with d := d, signalled := s.signalled || sig }
  | ends {s i sig m} : inSinkDtor s.d i = true → sleepsIn s i = false → (sig && s.signalled) = false → s.d.active = false →
      DxTr s (.fatal i sig m) { s with ended := true, signalled := s.signalled || sig }

theorem dx_tr {s s' : DxState M} {l : DxLabel M} (h : dxStep s l = some s') : (s.ended = false ∧ s.d.w.ub = false ∧ s.d.w.wpc.isDead = false) ∧ DxTr s l s' := by
  unfold dxStep at h
  split at h
  · cases h
  rename_i hu
  have hu' : s.ended = false ∧ s.d.w.ub = false ∧ s.d.w.wpc.isDead = false := by
    simp only [Bool.or_eq_true, not_or, Bool.not_eq_true] at hu
    exact ⟨hu.1.1, hu.1.2, hu.2⟩
  refine ⟨hu', ?_⟩
  cases l with
  | plain l =>
    simp only at h
    split at h
    · rename_i hk
      obtain ⟨d, hd, rfl⟩ := Option.map_eq_some_iff.1 h
      exact .plain hk hd
    · cases h
  | fatal i sig m =>
    simp only at h
    split at h
    · rename_i hk
      rw [Bool.and_eq_true] at hk
      have hn : sleepsIn s i = false := by simpa using hk.2
      unfold dxFatal at h
      split at h
      · rename_i hs
        rw [Bool.and_eq_true] at hs
        obtain ⟨rfl, hs⟩ := hs
        cases h
        exact .sleeps hk.1 hn hs
      · rename_i hs
        have hs : (sig && s.signalled) = false := by simpa using hs
        split at h
        · rename_i ha
          obtain ⟨d, hd, rfl⟩ := Option.map_eq_some_iff.1 h
          exact .handed hk.1 hn hs ha hd
        · rename_i ha
          cases h
          exact .ends hk.1 hn hs (by simpa using ha)
    · cases h

theorem goSleep_d (s : DxState M) (i : Nat) : (goSleep s i).d = s.d ∧ (goSleep s i).signalled = s.signalled ∧ (goSleep s i).ended = s.ended := by
  unfold goSleep; split <;> exact ⟨rfl, rfl, rfl⟩

theorem dx_tail {ls : List (DxLabel M)} : ∀ {s s' : DxState M}, dxRun s ls = some s' → ∃ ls', SeenAs ls ls' ∧ dtRun s.d ls' = some s'.d := by
  induction ls with
  | nil => intro s s' h; cases h; exact ⟨[], .nil, rfl⟩
  | cons l ls ih =>
    intro s s' h
    obtain ⟨v, hv, hr⟩ := Option.bind_eq_some_iff.1 h
    obtain ⟨ls', hsn, hrun⟩ := ih hr
    have one : ∀ {x}, dtStep s.d x = some v.d → dtRun s.d (x :: ls') = some s'.d := by
      intro x hx; show (dtStep s.d x).bind _ = _; rw [hx]; exact hrun
    match l, v, (dx_tr hv).2 with
    | _, _, .plain (l := l) _ hd => exact ⟨_, .plain l hsn, one hd⟩
    | _, _, .sleeps (i := i) (m := m) _ _ _ => exact ⟨_, .dropped i true m hsn, by rw [(goSleep_d s i).1] at hrun; exact hrun⟩
    | _, _, .handed (i := i) (sig := sig) (m := m) _ _ _ _ hd => exact ⟨_, .handed i sig m hsn, one hd⟩
    | _, _, .ends (i := i) (sig := sig) (m := m) _ _ _ _ => exact ⟨_, .dropped i sig m hsn, hrun⟩

theorem dx_run_append : ∀ {a : List (DxLabel M)} {x y z : DxState M} {b}, dxRun x a = some y → dxRun y b = some z → dxRun x (a ++ b) = some z := by
  intro a
  induction a with
  | nil => intro x y z b h g; cases h; exact g
  | cons q a ih =>
    intro x y z b h g
    obtain ⟨v, hv, h⟩ := Option.bind_eq_some_iff.1 h
    show (dxStep x q).bind _ = _
    rw [hv]; exact ih h g

/-- C111: for worker and sinks, a program with fatal events in destructors is one without, with some of these events as fatal messages of clients: all of C110 applies. -/
theorem C111_requests {ls : List (DxLabel M)} {s : DxState M} (h : dxRun .start ls = some s) : ∃ ls', SeenAs ls ls' ∧ dtRun .start ls' = some s.d := dx_tail h

/-! ### What such an event does -/

/-- A signal, or an exception, in a destructor. -/
def isSig : DxLabel M → Bool
  | .fatal _ sig _ => sig
  | _ => false

/-- A fatal event in a destructor. -/
def isBoom : DxLabel M → Bool
  | .fatal _ _ _ => true
  | _ => false

theorem signalled_step {s s' : DxState M} {l : DxLabel M} (h : DxTr s l s') : s'.signalled = (s.signalled || isSig l) := by
  cases h with
  | plain => simp [isSig]
  | sleeps _ _ hs => rw [(goSleep_d _ _).2.1, hs]; rfl
  | handed => rfl
  | ends => rfl

theorem signalled_run (ls : List (DxLabel M)) : ∀ {s s' : DxState M}, dxRun s ls = some s' → s'.signalled = (s.signalled || ls.any isSig) := by
  induction ls with
  | nil => intro s s' h; cases h; simp
  | cons l ls ih =>
    intro s s' h
    obtain ⟨v, hv, hr⟩ := Option.bind_eq_some_iff.1 h
    rw [ih hr, signalled_step (dx_tr hv).2, List.any_cons, Bool.or_assoc]

theorem isDead_of {w : WState M} (h : w.wpc ≠ .dead) : w.wpc.isDead = false := by
  cases hw : w.wpc <;> first | rfl | exact absurd hw h

theorem fatal_works {d : DtState M} {m : M} (hub : d.w.ub = false) (hd : d.w.wpc.isDead = false) (ha : d.active = true) (hp : d.w.phase = .notStarted) :
    dtStep d (.base (.fatal m)) = some { d with w := pushTask d.w (.fatal m) } := by
  have hs : wStep d.w (.fatal m) = some (pushTask d.w (.fatal m)) := by
    unfold wStep
    rw [if_neg (by simp [hub, hd])]
    simp only [hp]; rfl
  unfold dtStep
  rw [if_neg (by simp [hub, hd])]
  simp only [dtOk, ha, if_true, hs]
  show some _ = some _
  simp [activeAfter, ha]

/-- C111: exactly what a fatal event in the destructor of a sink does. If an earlier signal is being dealt with, a signal only stops this thread. Otherwise the worker gets the report, if it is in use; if it is being destroyed or busy with a fatal message,
the process ends at once. -/
theorem C111_exact {pre : List (DxLabel M)} {u : DxState M} {i : Nat} (sig : Bool) (m : M) (hu : dxRun .start pre = some u) (he : u.ended = false) (hub : u.d.w.ub = false) (hd : u.d.w.wpc ≠ .dead)
    (hi : inSinkDtor u.d i = true) (hn : sleepsIn u i = false) :
    ∃ s, dxStep u (.fatal i sig m) = some s ∧
      (sig = true → (∃ l ∈ pre, isSig l = true) → s.d = u.d ∧ s.ended = false) ∧
      (¬ (sig = true ∧ ∃ l ∈ pre, isSig l = true) → u.d.w.phase = .notStarted ∧ NoFatal u.d.w →
        s.d.w = pushTask u.d.w (.fatal m) ∧ s.ended = false ∧ s.d.unlogged = u.d.unlogged ∧ s.d.active = true) ∧
      (¬ (sig = true ∧ ∃ l ∈ pre, isSig l = true) → ¬ (u.d.w.phase = .notStarted ∧ NoFatal u.d.w) → s.d = u.d ∧ s.ended = true) := by
  obtain ⟨ls', _, hdt⟩ := C111_requests hu
  have hact := C110_active hdt
  have hsg : u.signalled = true ↔ ∃ l ∈ pre, isSig l = true := by
    rw [signalled_run pre hu]; simp [DxState.start]
  have e : dxStep u (.fatal i sig m) = dxFatal u i sig m := by
    unfold dxStep
    rw [if_neg (by simp [he, hub, isDead_of hd])]
    simp only [hi, hn, Bool.not_false, Bool.and_self, if_true]
  rw [e]
  unfold dxFatal
  by_cases hs : sig = true ∧ ∃ l ∈ pre, isSig l = true
  · have h1 : (sig && u.signalled) = true := by rw [Bool.and_eq_true]; exact ⟨hs.1, hsg.2 hs.2⟩
    rw [if_pos h1]
    refine ⟨_, rfl, fun _ _ => ⟨(goSleep_d u i).1, (goSleep_d u i).2.2.trans he⟩, fun h => absurd hs h, fun h => absurd hs h⟩
  · have h1 : (sig && u.signalled) ≠ true := by
      rw [Ne, Bool.and_eq_true]; exact fun h => hs ⟨h.1, hsg.1 h.2⟩
    rw [if_neg h1]
    by_cases ha : u.d.active = true
    · have hp := hact.1 ha
      rw [if_pos ha, fatal_works hub (isDead_of hd) ha hp.1]
      refine ⟨_, rfl, fun a b => absurd ⟨a, b⟩ hs, fun _ _ => ⟨rfl, (goSleep_d u i).2.2.trans he, rfl, ha⟩, fun _ h => absurd hp h⟩
    · rw [if_neg ha]
      refine ⟨_, rfl, fun a b => absurd ⟨a, b⟩ hs, fun _ h => absurd (hact.2 h) ha, fun _ _ => ⟨rfl, rfl⟩⟩

/-! ### The end of the process -/

/-- A run without new input. -/
inductive OwnRun : DxState M → List (DtLabel M) → DxState M → Prop
  | nil (s) : OwnRun s [] s
  | cons {s u s' : DxState M} {l : DtLabel M} {ls} : ownStep s.d.w l → dxStep s (.plain l) = some u → OwnRun u ls s' → OwnRun s (l :: ls) s'

/-- No step is possible without new input. -/
def ownStuck (s : DxState M) : Prop := ∀ l, ownStep s.d.w l → dxStep s (.plain l) = none

theorem own_base {w : WState M} {l : DtLabel M} (h : ownStep w l) : ∃ x, l = .base x ∧ internal w x := by
  cases l with
  | base x => cases x <;> first | exact ⟨_, rfl, h⟩ | exact False.elim h
  | log _ _ => exact False.elim h
  | sync _ _ => exact False.elim h
  | back => exact False.elim h

theorem ownRun_step {s u : DxState M} {l : DtLabel M} (hl : ownStep s.d.w l) (h : dxStep s (.plain l) = some u) :
    ∃ x, l = .base x ∧ internal s.d.w x ∧ wStep s.d.w x = some u.d.w ∧ u.stuck = s.stuck ∧ u.d.waits = s.d.waits ∧ u.ended = s.ended ∧ u.asleep = s.asleep := by
  obtain ⟨x, rfl, hx⟩ := own_base hl
  refine ⟨x, rfl, hx, ?_⟩
  match u, (dx_tr h).2 with
  | _, .plain (d := d) _ hd =>
    match d, (dt_tr hd).2 with
    | _, .base _ hb => exact ⟨hb, rfl, rfl, rfl, rfl⟩

theorem own_irun {ls : List (DtLabel M)} {s s' : DxState M} (h : OwnRun s ls s') :
    ∃ l, l.length = ls.length ∧ IRun s.d.w l s'.d.w ∧ s'.stuck = s.stuck ∧ s'.d.waits = s.d.waits ∧ s'.ended = s.ended ∧ dxRun s (ls.map .plain) = some s' := by
  induction h with
  | nil s => exact ⟨[], rfl, .nil _, rfl, rfl, rfl, rfl⟩
  | @cons s u s' l ls hl hs _ ih =>
    obtain ⟨x, _, hx, hw, a, b, c, _⟩ := ownRun_step hl hs
    obtain ⟨l', hl', hi, a', b', c', d'⟩ := ih
    refine ⟨x :: l', by simp [hl'], .cons hx hw hi, a'.trans a, b'.trans b, c'.trans c, ?_⟩
    show (dxStep s (.plain l)).bind _ = _
    rw [hs]; exact d'

/-- A worker whose thread and whose sinks cannot go on has nothing to do. -/
theorem worker_done {s : WState M} (hi : AllInv s) (hu : s.ub = false) (hd : s.wpc ≠ .dead) (hb : ∀ i, (s.sk i).blocked = false)
    (hw : wStep s .work = none) (hp : ∀ i, wStep s (.sinkPop i) = none) (hf : ∀ i, wStep s (.sinkFin i) = none) : (s.wpc = .idle ∧ s.wq = []) ∨ s.wpc = .ended := by
  have hg : ¬ (s.ub = true ∨ s.wpc.isDead = true) := by simp [hu, isDead_of hd]
  have hrun : ∀ i, i < s.n → (s.sk i).running = none := by
    intro i hin
    have := hf i
    simp only [wStep, if_neg hg, sinkFin, hin, hb i, and_self, if_true] at this
    split at this
    · assumption
    · cases this
    · cases this
  have hq : ∀ i, i < s.n → (s.sk i).q = [] := by
    intro i hin
    cases he : (s.sk i).exited with
    | true => exact ((hi.w.sinks.loc i).exit he).1
    | false =>
      have := hp i
      simp only [wStep, if_neg hg, sinkPop, hin, hrun i hin, he, and_self, if_true] at this
      split at this
      · assumption
      · cases this
  have hex : ∀ i, i < s.n → (s.sk i).stopSent = true → (s.sk i).exited = true :=
    fun i hin hs => sent_stop (hi.w.sinks.loc i) hs (hq i hin) (hrun i hin)
  have hwork := hw
  simp only [wStep, if_neg hg, workStep] at hwork
  split at hwork
  · next hp =>
    left
    refine ⟨hp, ?_⟩
    unfold takeTask at hwork
    split at hwork
    · assumption
    · split at hwork <;> cases hwork
    · cases hwork
    · cases hwork
    · split at hwork <;> cases hwork
    · cases hwork
    · cases hwork
  · cases hwork
  · cases hwork
  · cases hwork
  · split at hwork <;> cases hwork
  · next i hp =>
    have hw := hi.w.sinks.waits i (by simp [waitsOn, hp, pcWaits])
    rw [if_pos (hex i hw.1 hw.2.1)] at hwork; cases hwork
  · split at hwork
    · split at hwork <;> cases hwork
    · split at hwork <;> cases hwork
  · next i f hp =>
    have hw := hi.w.sinks.waits i (by simp [waitsOn, hp, pcWaits])
    rw [if_pos (hex i hw.1 hw.2.1)] at hwork; cases hwork
  · next hp => exact Or.inr hp
  · next hp => exact absurd hp hd

/-- A fatal message that has entered the worker keeps it busy until the process ends. -/
theorem fatal_pending {s : WState M} (hi : AllInv s) {m : M} (hm : .fatal m ∈ s.sub) (h : (s.wpc = .idle ∧ s.wq = []) ∨ s.wpc = .ended) : False := by
  rcases h with ⟨hw, hwq⟩ | hw
  · have hgone : s.phase.queueGone = false := by
      cases hgo : s.phase.queueGone
      · rfl
      · rw [(hi.w.book.gone hgo).2] at hw; cases hw
    have h1 := hi.w.book.queue hgone
    have h3 : started s = s.completed := by unfold started; rw [hw]; rfl
    rw [hwq, h3] at h1
    have h4 := List.drop_eq_nil_iff.1 h1.symm
    have := hi.w.book.notFinal (by rw [hw]; simp) (.fatal m) (by rw [List.take_of_length_le h4]; exact hm)
    cases this
  · obtain ⟨pre, hpp, hpre⟩ := hi.w.book.ended hw
    rw [ended_facts hi hw, List.take_length] at hpp
    rw [hpp] at hm
    rcases List.mem_append.1 hm with hm | hm
    · have := hpre _ hm; cases this
    · rw [List.mem_singleton] at hm; cases hm

/-- The worker has got a fatal message. -/
def FatalIn (w : WState M) : Prop := ∃ m, WTask.fatal m ∈ w.sub

theorem fatalIn_dt {d d' : DtState M} {l : DtLabel M} (hi : AllInv d.w) (h : dtStep d l = some d') (hf : FatalIn d.w) : FatalIn d'.w := by
  obtain ⟨B, hB⟩ := dt_tail (ls := [l]) (s := d) (s' := d') (by show (dtStep d l).bind _ = _; rw [h]; rfl)
  obtain ⟨t, ht, _⟩ := (grows_run hi hB).sub
  obtain ⟨m, hm⟩ := hf
  exact ⟨m, by rw [ht]; exact List.mem_append_left _ hm⟩

theorem dx_inv {ls : List (DxLabel M)} {s : DxState M} (h : dxRun .start ls = some s) : AllInv s.d.w := by
  obtain ⟨ls', _, hdt⟩ := C111_requests h
  obtain ⟨n, _, hw, _⟩ := C110_requests hdt
  exact allInv_run hw

theorem dx_snoc {ls : List (DxLabel M)} {l : DxLabel M} {s u v : DxState M} (h : dxRun s ls = some u) (hv : dxStep u l = some v) : dxRun s (ls ++ [l]) = some v := by
  induction ls generalizing s with
  | nil => cases h; show (dxStep _ l).bind _ = _; rw [hv]; rfl
  | cons x ls ih =>
    obtain ⟨w, hw, hr⟩ := Option.bind_eq_some_iff.1 h
    show (dxStep s x).bind _ = _
    rw [hw]; exact ih hr

/-- After a fatal event in a destructor the process has ended or the worker has a fatal message. -/
theorem boom_fatal {ls : List (DxLabel M)} {s : DxState M} (h : dxRun .start ls = some s) (hb : ∃ l ∈ ls, isBoom l = true) : s.ended = true ∨ FatalIn s.d.w := by
  have gen : ∀ (post pre : List (DxLabel M)) {u s : DxState M}, dxRun .start pre = some u → dxRun u post = some s →
      ((u.signalled = true ∨ ∃ l ∈ pre, isBoom l = true) → u.ended = true ∨ FatalIn u.d.w) →
      ((s.signalled = true ∨ ∃ l ∈ pre ++ post, isBoom l = true) → s.ended = true ∨ FatalIn s.d.w) := by
    intro post
    induction post with
    | nil => intro pre u s hu hs hi; cases hs; simpa using hi
    | cons l post ih =>
      intro pre u s hu hs hi
      obtain ⟨v, hv, hr⟩ := Option.bind_eq_some_iff.1 hs
      have hv' := dx_snoc hu hv
      have e : pre ++ l :: post = (pre ++ [l]) ++ post := by simp
      rw [e]
      refine ih (pre ++ [l]) hv' hr ?_
      obtain ⟨⟨hen, hub, hdd⟩, ht⟩ := dx_tr hv
      match l, v, ht with
      | _, _, .plain (l := l) _ hd =>
        intro hb
        have hb' : u.signalled = true ∨ ∃ l ∈ pre, isBoom l = true := by
          rcases hb with hb | ⟨x, hx, hxb⟩
          · exact Or.inl hb
          · rcases List.mem_append.1 hx with hx | hx
            · exact Or.inr ⟨x, hx, hxb⟩
            · rw [List.mem_singleton] at hx; subst hx; cases hxb
        rcases hi hb' with h | h
        · rw [hen] at h; cases h
        · exact Or.inr (fatalIn_dt (dx_inv hu) hd h)
      | _, _, .sleeps (i := i) _ _ hs =>
        intro _
        rw [(goSleep_d u i).1]
        rcases hi (Or.inl hs) with h | h
        · rw [hen] at h; cases h
        · exact Or.inr h
      | _, _, .handed (m := m) _ _ _ ha hd =>
        intro _
        refine Or.inr ⟨m, ?_⟩
        obtain ⟨ls', _, hdt⟩ := C111_requests hu
        have hp := (C110_active hdt).1 ha
        rw [fatal_works hub hdd ha hp.1] at hd
        cases hd
        show _ ∈ u.d.w.sub ++ [WTask.fatal m]
        simp
      | _, _, .ends _ _ _ _ => exact fun _ => Or.inl rfl
  have := gen ls [] (u := .start) rfl h (by rintro (h | ⟨l, hl, _⟩) <;> contradiction)
  exact this (Or.inr (by simpa using hb))

/-- C111, the part that holds: after a fatal event in the destructor of a sink on another thread than the worker's (the worker thread neither sleeps nor waits inside a destructor, and no sink thread sleeps), the threads have a bounded number of steps left
without new input, and when nothing can go on any more the process has been ended by the worker; every sink that no client uses has been destroyed and has processed everything due to it before the fatal message, and that message. -/
theorem C111_partial {ls : List (DxLabel M)} {u : DxState M} (hu : dxRun .start ls = some u) (hb : ∃ l ∈ ls, isBoom l = true) (he : u.ended = false) (hub : u.d.w.ub = false)
    (hst : u.stuck = false) (hw : u.d.waits = none) (hbl : ∀ i, (u.d.w.sk i).blocked = false) {post : List (DtLabel M)} {t : DxState M} (hr : OwnRun u post t) :
    post.length ≤ work u.d.w ∧ (ownStuck t → t.d.w.wpc = .dead ∧
      ∃ ls' n, SeenAs (ls ++ post.map .plain) ls' ∧ Cut .start ls' n ∧
        ∃ pre m rest, handed 0 0 (asSeen n 0 0 ls') = pre ++ .fatal m :: rest ∧ (∀ r ∈ pre, r.final = false) ∧
          ∀ i, i < t.d.w.n → ¬ clientUses t.d.w i → (t.d.w.sk i).destroyed = true ∧ received (t.d.w.sk i) = gets i pre ++ if attached i pre then [.fatal m] else []) := by
  obtain ⟨l, hlen, hir, h1, h2, h3, hdx⟩ := own_irun hr
  obtain ⟨ls0, _, hdt0⟩ := C111_requests hu
  obtain ⟨n0, _, hw0, _⟩ := C110_requests hdt0
  have hall : dxRun .start (ls ++ post.map .plain) = some t := by
    exact dx_run_append hu hdx
  refine ⟨by have := C52_bounded hw0 hir; omega, fun hstk => ?_⟩
  obtain ⟨ls', hsn, hdt⟩ := C111_requests hall
  obtain ⟨n, hcut, hwr, _⟩ := C110_requests hdt
  have hdead : t.d.w.wpc = .dead := by
    rcases Classical.em (t.d.w.wpc = .dead) with h | hnd
    · exact h
    exfalso
    obtain ⟨hbl', hub'⟩ := blocked_same (allInv_run hw0) hir hbl hub
    have hen : t.ended = false := h3.trans he
    have nostep : ∀ x, ownStep t.d.w (.base x) → dtOk t.d x = true → dxAwake t (.base x) = true → wStep t.d.w x = none := by
      intro x hx hok haw
      have := hstk (.base x) hx
      unfold dxStep at this
      rw [if_neg (by simp [hen, hub', isDead_of hnd])] at this
      simp only [haw, if_true, Option.map_eq_none_iff] at this
      unfold dtStep at this
      rw [if_neg (by simp [hub', isDead_of hnd])] at this
      simp only [hok, if_true, Option.map_eq_none_iff] at this
      exact this
    have hdone := worker_done (allInv_run hwr) hub' hnd hbl'
      (nostep .work trivial (by simp [dtOk, h2.trans hw]) (by simp [dxAwake, h1.trans hst]))
      (fun i => nostep (.sinkPop i) trivial rfl rfl) (fun i => nostep (.sinkFin i) trivial rfl rfl)
    have hfat : FatalIn t.d.w := by
      obtain ⟨x, hx, hxb⟩ := hb
      rcases boom_fatal hall ⟨x, List.mem_append_left _ hx, hxb⟩ with h | h
      · rw [hen] at h; cases h
      · exact h
    obtain ⟨m, hm⟩ := hfat
    exact fatal_pending (allInv_run hwr) hm hdone
  exact ⟨hdead, ls', n, hsn, hcut, C07_partial hwr hdead⟩

/-! ### The thread that raised the event -/

theorem upd_reaping {sk : Nat → SinkSt M} {i j : Nat} {f : SinkSt M → SinkSt M} (hf : ∀ k : SinkSt M, k.reaping = true → (f k).reaping = true) (h : (sk i).reaping = true) : (updSink sk j f i).reaping = true := by
  unfold updSink; split
  · exact hf _ h
  · exact h

theorem reaping_drop {s : WState M} {i j : Nat} (h : (s.sk i).reaping = true) : ((clientDrop s j).sk i).reaping = true := by
  unfold clientDrop; split
  · exact h
  · exact upd_reaping (fun _ _ => rfl) h

/-- Only the thread that runs it ends the destructor of a sink on a client's thread. -/
theorem reaping_step {s s' : WState M} {l : WLabel M} {i : Nat} (hi : SInv s) (hl : l ≠ .reap i) (h : wStep s l = some s') (hr : (s.sk i).reaping = true) : (s'.sk i).reaping = true := by
  unfold wStep at h
  split at h
  · cases h
  have begin1 : ∀ (s : WState M) k t, ((beginCall s k t).sk i) = s.sk i := by
    intro s k t; unfold beginCall; repeat' split
    all_goals rfl
  cases l with
  | save m => simp only at h; split at h <;> (cases h; exact hr)
  | fatal m => simp only at h; split at h <;> (cases h; exact hr)
  | add =>
    simp only [Option.some.injEq] at h; subst h
    unfold addStep; split
    · exact hr
    · rw [begin1]
      have : i ≠ s.n := by
        rintro rfl
        rw [hi.fresh _ (Nat.le_refl _)] at hr; cases hr
      show (updSink s.sk s.n _ i).reaping = true
      rw [updSink_ne _ _ this]; exact hr
  | remove j =>
    simp only at h; split at h <;> cases h
    rw [begin1]; exact hr
  | clear => simp only [Option.some.injEq] at h; subst h; rw [begin1]; exact hr
  | ret k =>
    simp only [retStep] at h
    split at h
    · cases h
    split at h
    · split at h <;> cases h
      · exact reaping_drop hr
      · exact hr
    · cases h
  | hold j => simp only at h; split at h <;> cases h; exact upd_reaping (fun _ h => h) hr
  | holdFail j c => simp only at h; split at h <;> cases h; exact hr
  | call j c => simp only at h; split at h <;> cases h; exact upd_reaping (fun _ h => h) hr
  | release j =>
    simp only at h; split at h <;> cases h
    exact reaping_drop (upd_reaping (sk := s.sk) (fun _ h => h) hr)
  | reap j =>
    simp only at h; split at h <;> cases h
    show (updSink s.sk j _ i).reaping = true
    rw [updSink_ne _ _ (fun e => hl (by rw [e]))]; exact hr
  | dtor =>
    simp only [dtorStep] at h
    repeat' split at h
    all_goals (cases h <;> first | exact hr | exact upd_reaping (fun _ h => h) hr)
  | work =>
    simp only [workStep, takeTask] at h
    repeat' split at h
    all_goals (cases h <;> first | exact hr | exact upd_reaping (fun _ h => h) hr)
  | sinkPop j =>
    simp only [sinkPop] at h
    repeat' split at h
    all_goals (cases h <;> exact upd_reaping (fun _ h => h) hr)
  | sinkFin j =>
    simp only [sinkFin] at h
    repeat' split at h
    all_goals (cases h <;> exact upd_reaping (fun _ h => h) hr)
  | sinkFatal j m =>
    simp only at h
    repeat' split at h
    all_goals (cases h <;> first | exact hr | exact upd_reaping (fun _ h => h) hr)

/-- Only its own thread takes the destructor of the worker on. -/
theorem phase_kept {s s' : WState M} {l : WLabel M} (hl : l ≠ .dtor) (h : wStep s l = some s') : s'.phase = s.phase := by
  unfold wStep at h
  split at h
  · cases h
  have begin1 : ∀ (s : WState M) k t, (beginCall s k t).phase = s.phase := by
    intro s k t; unfold beginCall; repeat' split
    all_goals rfl
  have drop1 : ∀ (s : WState M) j, (clientDrop s j).phase = s.phase := by
    intro s j; unfold clientDrop; split <;> rfl
  cases l with
  | dtor => exact absurd rfl hl
  | add =>
    simp only [Option.some.injEq] at h; subst h
    unfold addStep; split
    · rfl
    · exact begin1 _ _ _
  | remove j => simp only at h; split at h <;> cases h; exact begin1 _ _ _
  | clear => simp only [Option.some.injEq] at h; subst h; exact begin1 _ _ _
  | ret k =>
    simp only [retStep] at h
    split at h
    · cases h
    split at h
    · split at h <;> cases h
      · exact drop1 _ _
      · rfl
    · cases h
  | release j => simp only at h; split at h <;> cases h; exact drop1 _ _
  | work =>
    simp only [workStep, takeTask] at h
    repeat' split at h
    all_goals (cases h <;> rfl)
  | sinkPop j =>
    simp only [sinkPop] at h
    repeat' split at h
    all_goals (cases h <;> rfl)
  | sinkFin j =>
    simp only [sinkFin] at h
    repeat' split at h
    all_goals (cases h <;> rfl)
  | _ =>
    simp only at h
    repeat' split at h
    all_goals (cases h <;> rfl)

/-- Which thread. -/
inductive Who
  | worker
  | client
  | dtor

/-- A thread sleeps in the destructor of sink i. -/
inductive Asleep (s : DxState M) (i : Nat) : Who → Prop
  | worker : s.stuck = true → pcWaits i s.d.w.wpc = true → Asleep s i .worker
  | client : s.asleep i = true → (s.d.w.sk i).reaping = true → Asleep s i .client
  | dtor : s.asleep i = true → s.d.w.phase = .waitSink i → Asleep s i .dtor

/-- That thread is in the destructor of sink i. -/
def inDtorOf (w : WState M) (i : Nat) : Who → Prop
  | .worker => onWorker w i = true
  | .client => (w.sk i).reaping = true
  | .dtor => w.phase = .waitSink i

theorem asleep_alive {s : DxState M} {i : Nat} {k : Who} (hi : AllInv s.d.w) (h : Asleep s i k) : (s.d.w.sk i).destroyed = false := by
  cases h with
  | worker _ h => exact (hi.w.sinks.waits i (by rw [waitsOn, h]; rfl)).2.2.1
  | client _ h => exact ((hi.w.sinks.loc i).reap h).2
  | dtor _ h => exact (hi.w.sinks.waits i (by rw [waitsOn, h]; simp [phaseWaits])).2.2.1

theorem onWorker_pc {w : WState M} {i : Nat} (h : onWorker w i = true) : pcWaits i w.wpc = true := by
  unfold onWorker at h
  rw [Bool.and_eq_true] at h
  unfold pcWaits
  exact h.1

theorem asleep_sleeps {s : DxState M} {i : Nat} {k : Who} (hi : AllInv s.d.w) (h : Asleep s i k) : inSinkDtor s.d i = false ∨ sleepsIn s i = true := by
  have other : s.asleep i = true → pcWaits i s.d.w.wpc ≠ true → sleepsIn s i = true := by
    intro ha hn
    unfold sleepsIn
    rw [if_neg (fun h => hn (onWorker_pc h))]; exact ha
  cases h with
  | worker hs hp =>
    have hr := (hi.w.sinks.waits i (by rw [waitsOn, hp]; rfl)).2.2.2
    by_cases hw : onWorker s.d.w i = true
    · right; unfold sleepsIn; rw [if_pos hw]; exact hs
    · left
      have hph : s.d.w.phase ≠ .waitSink i := by
        intro e
        have := (hi.w.book.gone (by rw [e]; rfl)).2
        rw [this] at hp; cases hp
      unfold inSinkDtor onOther
      simp [hr, hph, hw]
  | client ha hr =>
    refine Or.inr (other ha fun hp => ?_)
    have := (hi.w.sinks.waits i (by rw [waitsOn, hp]; rfl)).2.2.2
    rw [hr] at this; cases this
  | dtor ha hph =>
    refine Or.inr (other ha fun hp => ?_)
    have := (hi.w.book.gone (by rw [hph]; rfl)).2
    rw [this] at hp; cases hp

theorem goSleep_mono (s : DxState M) (i : Nat) : (s.stuck = true → (goSleep s i).stuck = true) ∧ ∀ j, s.asleep j = true → (goSleep s i).asleep j = true := by
  unfold goSleep; split
  · exact ⟨fun _ => rfl, fun _ h => h⟩
  · refine ⟨fun h => h, fun j h => ?_⟩
    show (if j = i then true else s.asleep j) = true
    rw [h]; simp

theorem asleep_mono {s s' : DxState M} {i : Nat} {k : Who} (h : Asleep s i k) (h1 : s.stuck = true → s'.stuck = true) (h2 : ∀ j, s.asleep j = true → s'.asleep j = true)
    (h3 : s'.d.w.wpc = s.d.w.wpc) (h4 : s'.d.w.phase = s.d.w.phase) (h5 : (s.d.w.sk i).reaping = true → (s'.d.w.sk i).reaping = true) : Asleep s' i k := by
  cases h with
  | worker a b => exact .worker (h1 a) (by rw [h3]; exact b)
  | client a b => exact .client (h2 _ a) (h5 b)
  | dtor a b => exact .dtor (h2 _ a) (h4.trans b)

theorem asleep_step {s s' : DxState M} {l : DxLabel M} {i : Nat} {k : Who} (hi : AllInv s.d.w) (ht : DxTr s l s') (h : Asleep s i k) : Asleep s' i k := by
  have quiet : ∀ {x : WLabel M} {w : WState M}, wStep s.d.w x = some w → x.isWork = false → x ≠ .dtor → x ≠ .reap i → w.wpc = s.d.w.wpc ∧ w.phase = s.d.w.phase ∧ ((s.d.w.sk i).reaping = true → (w.sk i).reaping = true) :=
    fun hx h1 h2 h3 => ⟨(nowork_step h1 hx).1, phase_kept h2 hx, fun hr => reaping_step hi.w.sinks h3 hx hr⟩
  cases ht with
  | @plain l d ha hd =>
    match l, d, (dt_tr hd).2 with
    | _, _, .base (l := x) (w := w) hk hb =>
      cases h with
      | worker a b =>
        have hx : x.isWork = false := by
          cases x <;> first | rfl | (simp only [dxAwake, a] at ha; cases ha)
        exact .worker a (by show pcWaits i w.wpc = true; rw [(nowork_step hx hb).1]; exact b)
      | client a b =>
        refine .client a (reaping_step hi.w.sinks ?_ hb b)
        rintro rfl
        simp only [dxAwake, a] at ha; cases ha
      | dtor a b =>
        refine .dtor a ((phase_kept ?_ hb).trans b)
        rintro rfl
        simp only [dxAwake, dtorSleeps, b, a] at ha; cases ha
    | _, _, .logged _ _ hb =>
      obtain ⟨a, b, c⟩ := quiet hb rfl nofun nofun
      exact asleep_mono h (fun h => h) (fun _ h => h) a b c
    | _, _, .lost .. => exact asleep_mono h (fun h => h) (fun _ h => h) rfl rfl (fun h => h)
    | _, _, .sync (c := c) _ _ hb =>
      obtain ⟨a, b, c⟩ := quiet hb (by cases c <;> rfl) (by cases c <;> nofun) (by cases c <;> nofun)
      exact asleep_mono h (fun h => h) (fun _ h => h) a b c
    | _, _, .back _ hb =>
      obtain ⟨a, b, c⟩ := quiet hb rfl nofun nofun
      exact asleep_mono h (fun h => h) (fun _ h => h) a b c
  | @sleeps j m =>
    obtain ⟨a, b⟩ := goSleep_mono s j
    have e := (goSleep_d s j).1
    exact asleep_mono h a b (by rw [e]) (by rw [e]) (by rw [e]; exact fun h => h)
  | @handed j sig m d hin _ _ ha hd =>
    obtain ⟨a, b⟩ := goSleep_mono s j
    match d, (dt_tr hd).2 with
    | _, .base _ hb =>
      obtain ⟨x, y, z⟩ := quiet hb rfl nofun nofun
      exact asleep_mono h a b x y z
  | ends => exact asleep_mono h (fun h => h) (fun _ h => h) rfl rfl (fun h => h)

theorem asleep_begins {s s' : DxState M} {i : Nat} {sig : Bool} {m : M} {k : Who} (hi : AllInv s.d.w) (ht : DxTr s (.fatal i sig m) s') (he : s'.ended = false) (hk : inDtorOf s.d.w i k) : Asleep s' i k := by
  have base : ∀ s' : DxState M, (goSleep s i).stuck = s'.stuck → (goSleep s i).asleep = s'.asleep → s'.d.w.wpc = s.d.w.wpc → s'.d.w.phase = s.d.w.phase →
      ((s.d.w.sk i).reaping = true → (s'.d.w.sk i).reaping = true) → Asleep s' i k := by
    intro s' h1 h2 h3 h4 h5
    unfold goSleep at h1 h2
    cases k with
    | worker =>
      have hk : onWorker s.d.w i = true := hk
      rw [if_pos hk] at h1
      exact .worker h1.symm (by rw [h3]; exact onWorker_pc hk)
    | client =>
      have hk : (s.d.w.sk i).reaping = true := hk
      have hw : ¬ onWorker s.d.w i = true := by
        intro hw
        have := (hi.w.sinks.waits i (by rw [waitsOn, onWorker_pc hw]; rfl)).2.2.2
        rw [hk] at this; cases this
      rw [if_neg hw] at h2
      exact .client (by rw [← h2]; simp) (h5 hk)
    | dtor =>
      have hk : s.d.w.phase = .waitSink i := hk
      have hw : ¬ onWorker s.d.w i = true := by
        intro hw
        have h0 := (hi.w.book.gone (by rw [hk]; rfl)).2
        have h1 := onWorker_pc hw
        rw [h0] at h1; cases h1
      rw [if_neg hw] at h2
      exact .dtor (by rw [← h2]; simp) (h4.trans hk)
  cases ht with
  | sleeps hin =>
    have e := (goSleep_d s i).1
    exact base _ rfl rfl (by rw [e]) (by rw [e]) (by rw [e]; exact fun h => h)
  | @handed _ _ _ d hin _ _ _ hd =>
    match d, (dt_tr hd).2 with
    | _, .base _ hb =>
      exact base _ rfl rfl (nowork_step (l := .fatal m) rfl hb).1 (phase_kept (l := .fatal m) nofun hb) (fun hr => reaping_step (l := .fatal m) hi.w.sinks nofun hb hr)
  | ends => cases he

theorem asleep_run : ∀ (post : List (DxLabel M)) {pre : List (DxLabel M)} {u s : DxState M} {i : Nat} {k : Who}, dxRun .start pre = some u → dxRun u post = some s → Asleep u i k →
    Asleep s i k ∧ AllInv s.d.w := by
  intro post
  induction post with
  | nil => intro pre u s i k hu hs h; cases hs; exact ⟨h, dx_inv hu⟩
  | cons l post ih =>
    intro pre u s i k hu hs h
    obtain ⟨v, hv, hr⟩ := Option.bind_eq_some_iff.1 hs
    exact ih (dx_snoc hu hv) hr (asleep_step (dx_inv hu) (dx_tr hv).2 h)

/-- C111: the thread that raised a fatal event in the destructor of a sink does nothing more: if the process goes on, the real sink is never destroyed, its destructor neither logs nor raises another fatal event, and the worker thread, the client or the
thread that destroys the worker takes no further step. -/
theorem C111_thread {pre post : List (DxLabel M)} {u v s : DxState M} {i : Nat} {sig : Bool} {m : M} (hu : dxRun .start pre = some u) (hv : dxStep u (.fatal i sig m) = some v) (he : v.ended = false)
    (h : dxRun v post = some s) :
    (s.d.w.sk i).destroyed = false ∧ (∀ m', dxStep s (.plain (.log (some i) m')) = none) ∧ (∀ sig' m', dxStep s (.fatal i sig' m') = none) ∧
      (onWorker u.d.w i = true → dxStep s (.plain (.base .work)) = none ∧ (∀ j c, dxStep s (.plain (.sync j c)) = none) ∧ dxStep s (.plain .back) = none) ∧
      ((u.d.w.sk i).reaping = true → dxStep s (.plain (.base (.reap i))) = none) ∧ (u.d.w.phase = .waitSink i → dxStep s (.plain (.base .dtor)) = none) := by
  have iu := dx_inv hu
  have ht := (dx_tr hv).2
  have hin : inSinkDtor u.d i = true := by
    match v, ht with
    | _, .sleeps h _ _ => exact h
    | _, .handed h _ _ _ _ => exact h
    | _, .ends h _ _ _ => exact h
  have all : ∀ {k : Who}, inDtorOf u.d.w i k → Asleep s i k ∧ AllInv s.d.w := fun hk => asleep_run post (dx_snoc hu hv) h (asleep_begins iu ht he hk)
  have awake : ∀ l, dxAwake s l = false → dxStep s (.plain l) = none := by
    intro l hl
    unfold dxStep
    split
    · rfl
    · simp only [hl, Bool.false_eq_true, if_false]
  have hany : ∃ k, inDtorOf u.d.w i k := by
    unfold inSinkDtor onOther at hin
    simp only [Bool.and_eq_true, Bool.or_eq_true, decide_eq_true_eq] at hin
    rcases hin with h | ⟨h | h, _⟩
    · exact ⟨.worker, h.1⟩
    · exact ⟨.client, h⟩
    · exact ⟨.dtor, h⟩
  obtain ⟨k, hk⟩ := hany
  obtain ⟨ha, is⟩ := all hk
  have hsl := asleep_sleeps is ha
  refine ⟨asleep_alive is ha, fun m' => ?_, fun sig' m' => ?_, fun hk => ?_, fun hk => ?_, fun hk => ?_⟩
  · rcases hsl with h | h
    · unfold dxStep
      split
      · rfl
      · simp only
        split
        · unfold dtStep
          split
          · rfl
          · simp only [h, Bool.false_eq_true, if_false]; rfl
        · rfl
    · exact awake _ (by simp [dxAwake, h])
  · unfold dxStep
    split
    · rfl
    · simp only
      rcases hsl with h | h <;> simp [h]
  · cases (all (k := .worker) hk).1 with
    | worker a b => exact ⟨awake _ (by simp [dxAwake, a]), fun j c => awake _ (by simp [dxAwake, a]), awake _ (by simp [dxAwake, a])⟩
  · cases (all (k := .client) hk).1 with
    | client a b => exact awake _ (by simp [dxAwake, a])
  · cases (all (k := .dtor) hk).1 with
    | dtor a b => exact awake _ (by simp [dxAwake, dtorSleeps, b, a])

/-! ### Where the claim fails -/

theorem completed_kept {s s' : DxState M} {l : DxLabel M} (h : s.stuck = true) (ht : DxTr s l s') : s'.stuck = true ∧ s'.d.w.wpc = s.d.w.wpc ∧ s'.d.w.completed = s.d.w.completed := by
  cases ht with
  | @plain l d ha hd =>
    refine ⟨h, ?_⟩
    match l, d, (dt_tr hd).2 with
    | _, _, .base (l := x) _ hb =>
      have hx : x.isWork = false := by
        cases x <;> first | rfl | (simp only [dxAwake, h] at ha; cases ha)
      exact nowork_step hx hb
    | _, _, .logged (m := m) _ _ hb => exact nowork_step (l := .save m) rfl hb
    | _, _, .lost .. => exact ⟨rfl, rfl⟩
    | _, _, .sync (c := c) _ _ hb => exact nowork_step (by cases c <;> rfl) hb
    | _, _, .back (k := k) _ hb => exact nowork_step (l := .ret k) rfl hb
  | @sleeps j m =>
    refine ⟨(goSleep_mono s j).1 h, ?_⟩
    rw [(goSleep_d s j).1]; exact ⟨rfl, rfl⟩
  | @handed j sig m d hin _ _ ha hd =>
    refine ⟨(goSleep_mono s j).1 h, ?_⟩
    match d, (dt_tr hd).2 with
    | _, .base _ hb => exact nowork_step (l := .fatal m) rfl hb
  | ends => exact ⟨h, rfl, rfl⟩

theorem ended_kept {s s' : DxState M} {l : DxLabel M} (h : s.ended = false) (hl : isBoom l = false) (ht : DxTr s l s') : s'.ended = false := by
  cases ht with
  | plain => exact h
  | sleeps => cases hl
  | handed => cases hl
  | ends => cases hl

/-- C111, where it fails: a fatal event in the destructor of a sink that the worker thread destroys, while the worker is in use or an earlier signal is being dealt with. Whatever follows, the worker does not end the process (only a fatal event in the
destructor of another sink can); no sink ever gets more than the requests give that the worker had begun, so not the report; the destructor of the worker does not return, and neither does any synchronous call that waits for the worker. -/
theorem C111_hangs {pre post : List (DxLabel M)} {u v s : DxState M} {i : Nat} {sig : Bool} {m : M} (hu : dxRun .start pre = some u) (ho : onWorker u.d.w i = true)
    (hv : dxStep u (.fatal i sig m) = some v) (he : v.ended = false) (h : dxRun v post = some s) :
    s.d.w.wpc = u.d.w.wpc ∧ s.d.w.wpc ≠ .dead ∧ ((∀ l ∈ post, isBoom l = false) → s.ended = false) ∧ s.d.w.phase ≠ .returned ∧
    (∃ ls' n, SeenAs pre ls' ∧ Cut .start ls' n ∧ ∀ j, received (s.d.w.sk j) <+: gets j ((handed 0 0 (asSeen n 0 0 ls')).take (started u.d.w))) ∧
    ∀ (k : Nat) (d : WCall) (p : Nat), s.d.w.calls[k]? = some d → d.pos = some p → u.d.w.completed ≤ p → d.returned = false := by
  obtain ⟨ls', hsn, hdt⟩ := C111_requests hu
  obtain ⟨n, hcut, hwr, _⟩ := C110_requests hdt
  have iu := allInv_run hwr
  have it := dx_inv (dx_run_append (dx_snoc hu hv) h)
  have hpc : (u.d.w.wpc = .rmWait i ∨ ∃ f, u.d.w.wpc = .clrWait i f) := (inside_pc.1 ho).1
  have hne : u.d.w.wpc ≠ .ended := by rintro e; rw [e] at hpc; simp at hpc
  have hnd : u.d.w.wpc ≠ .dead := by rintro e; rw [e] at hpc; simp at hpc
  have hk0 : v.stuck = true ∧ v.d.w.wpc = u.d.w.wpc ∧ v.d.w.completed = u.d.w.completed := by
    have hgs : (goSleep u i).stuck = true := by unfold goSleep; rw [if_pos ho]
    match v, (dx_tr hv).2 with
    | _, .sleeps _ _ _ => exact ⟨hgs, by rw [(goSleep_d u i).1], by rw [(goSleep_d u i).1]⟩
    | _, .handed (d := d) _ _ _ _ hd =>
      refine ⟨hgs, ?_⟩
      match d, (dt_tr hd).2 with
      | _, .base _ hb => exact nowork_step (l := .fatal m) rfl hb
    | _, .ends _ _ _ _ => cases he
  have key : ∀ (ls : List (DxLabel M)) {x y : DxState M}, x.stuck = true → dxRun x ls = some y → y.d.w.wpc = x.d.w.wpc ∧ y.d.w.completed = x.d.w.completed ∧
      (x.ended = false → (∀ l ∈ ls, isBoom l = false) → y.ended = false) := by
    intro ls
    induction ls with
    | nil => intro x y hx hy; cases hy; exact ⟨rfl, rfl, fun h _ => h⟩
    | cons l ls ih =>
      intro x y hx hy
      obtain ⟨z, hz, hy⟩ := Option.bind_eq_some_iff.1 hy
      have hz := (dx_tr hz).2
      obtain ⟨a, b, c⟩ := completed_kept hx hz
      obtain ⟨d, e, f⟩ := ih a hy
      exact ⟨d.trans b, e.trans c, fun hx hl => f (ended_kept hx (hl l List.mem_cons_self) hz) fun l' h' => hl l' (List.mem_cons_of_mem _ h')⟩
  obtain ⟨k1, k2, k3⟩ := key post hk0.1 h
  have hW : s.d.w.wpc = u.d.w.wpc := k1.trans hk0.2.1
  have hC : s.d.w.completed = u.d.w.completed := k2.trans hk0.2.2
  have hg : s.d.w.phase.queueGone = false := by
    cases hg : s.d.w.phase.queueGone with
    | false => rfl
    | true => exact absurd (hW ▸ (it.w.book.gone hg).2) hne
  have htail : ∃ B, wRun u.d.w B = some s.d.w := by
    have : dxRun u (.fatal i sig m :: post) = some s := by show (dxStep _ _).bind _ = _; rw [hv]; exact h
    obtain ⟨x, _, hx⟩ := dx_tail this
    exact dt_tail hx
  obtain ⟨B, hB⟩ := htail
  have hall := wRun_append' hwr hB
  refine ⟨hW, by rw [hW]; exact hnd, k3 he, fun e => (by rw [e] at hg; cases hg), ⟨ls', n, hsn, hcut, fun j => ?_⟩, fun k d p hk hp hle => ?_⟩
  · have hst : started s.d.w = started u.d.w := by unfold started; rw [hW, hC]
    have f1 := it.w.deliver.got j
    have f2 : reqs s.d.w (started s.d.w) = (handed 0 0 (asSeen n 0 0 ls')).take (started u.d.w) := by
      obtain ⟨x, hx⟩ := handed_append hwr hB
      rw [reqs_handed hall, hx, hst, List.take_append_of_le_length]
      rw [← sub_handed hwr, List.length_map]; exact iu.w.book.le
    rw [f2] at f1
    exact (received_prefix _).trans ⟨_, f1⟩
  · cases hcr : d.returned with
    | false => rfl
    | true =>
      exfalso
      have := it.w.calls.ret d (List.mem_of_getElem? hk) hcr
      unfold ready at this
      rw [hp] at this
      simp only [hg, Bool.or_false, decide_eq_true_eq, hC] at this
      omega

/-! ### Concrete programs -/

/-- Steps without fatal events in destructors. -/
def plainly (ls : List (DtLabel Nat)) : List (DxLabel Nat) := ls.map .plain

theorem seenAs_plain {ls ls' : List (DtLabel Nat)} (h : SeenAs (plainly ls) ls') : ls' = ls := by
  induction ls generalizing ls' with
  | nil => match ls', h with | _, .nil => rfl
  | cons l ls ih => match ls', h with | _, .plain _ h => rw [ih h]

/-- A handle keeps sink 0 alive beyond its removal; the client is in the destructor of its real sink. -/
def releasing : List (DxLabel Nat) :=
  plainly (pairAttached ++ [.base (.hold 0), .base (.remove 0), .base .work, .base .work, .base (.ret 2), .log none 5, .base (.release 0), .base (.sinkPop 0), .base (.sinkFin 0)])

/-- What follows a fatal event there. -/
def afterwards : List (DtLabel Nat) :=
  [.base .work, .base .work, .base .work, .base .work, .base .work, .base .work, .base .work, .base (.sinkPop 1), .base (.sinkFin 1), .base (.sinkPop 1), .base (.sinkFin 1), .base (.sinkPop 1), .base (.sinkFin 1)]

/-- The hypotheses of `C111_exact` in all its cases: a destructor on a client's thread while the worker is in use; then a second signal in the destructor of another sink; a destructor while the worker is being destroyed. -/
example : ∃ u v w : DxState Nat, dxRun .start releasing = some u ∧ inSinkDtor u.d 0 = true ∧ sleepsIn u 0 = false ∧ u.d.w.phase = .notStarted ∧ u.d.active = true ∧
    dxRun u ([.fatal 0 true 9] ++ plainly afterwards) = some v ∧ inSinkDtor v.d 1 = true ∧ sleepsIn v 1 = false ∧ v.signalled = true ∧ v.ended = false ∧ v.d.w.wpc = .clrWait 1 true ∧
    dxRun .start (plainly destroying) = some w ∧ inSinkDtor w.d 0 = true ∧ sleepsIn w 0 = false ∧ w.d.w.phase ≠ .notStarted :=
  ⟨_, _, _, rfl, rfl, rfl, rfl, rfl, rfl, rfl, rfl, rfl, rfl, rfl, rfl, rfl, rfl, nofun⟩

/-- The hypotheses of `C111_partial`: the client's destructor throws; in the end sink 1 has both the entry and the report, and the process has ended. -/
example : ∃ u t : DxState Nat, dxRun .start (releasing ++ [.fatal 0 true 9]) = some u ∧ dxRun u (plainly (afterwards ++ [.base .work, .base .work])) = some t ∧
    u.ended = false ∧ u.d.w.ub = false ∧ u.stuck = false ∧ u.d.waits = none ∧ (∀ i, (u.d.w.sk i).blocked = false) ∧
    OwnRun u (afterwards ++ [.base .work, .base .work]) t ∧ t.d.w.wpc = .dead ∧ received (t.d.w.sk 1) = [.log 5, .fatal 9] ∧ (t.d.w.sk 0).destroyed = false := by
  refine ⟨_, _, rfl, rfl, rfl, rfl, rfl, rfl, fun i => ?_, ?_, rfl, rfl, rfl⟩
  · rcases i with _ | _ | i <;> rfl
  · repeat' first | exact .nil _ | refine .cons trivial rfl ?_

/-- The hypotheses of `C111_thread` and `C111_hangs`: the destructor of a sink that the worker thread destroys, in `removeSink`. -/
example : ∃ u v s : DxState Nat, dxRun .start (plainly removing) = some u ∧ onWorker u.d.w 0 = true ∧ dxStep u (.fatal 0 false 9) = some v ∧ v.ended = false ∧
    dxRun v (plainly [.log none 5, .base .dtor]) = some s ∧ s.d.w.wpc = .rmWait 0 ∧ s.d.unlogged = [] ∧ s.d.w.wq = [.fatal 9, .save 5, .clear] :=
  ⟨_, _, _, rfl, rfl, rfl, rfl, rfl, rfl, rfl, rfl⟩

/-- C111 fails: the worker is being destroyed, 5 waits in the queue of sink 1, and the destructor of sink 0 has a fatal statement. The process ends at once: sink 1 has neither. -/
theorem C111_negation : ∃ s : DxState Nat, dxRun .start (plainly (pairAttached ++ [.log none 5, .base .work, .base .work, .base .work, .base .work, .base (.sinkPop 0), .base (.sinkFin 0), .base .dtor, .base .work, .base .work,
      .base (.sinkPop 0), .base (.sinkFin 0)]) ++ [.fatal 0 false 9]) = some s ∧ s.ended = true ∧ s.d.w.att = [1] ∧ received (s.d.w.sk 1) = [] ∧ (s.d.w.sk 1).q = [.msg 5] ∧ s.d.w.err = [] :=
  ⟨_, rfl, rfl, rfl, rfl, rfl, rfl⟩

/-- C111 fails: a client removes sink 0, whose destructor has a fatal statement. Nothing that happens in the program ends the process, and sink 1 never gets the report. -/
theorem C111_hang_negation : ∃ v : DxState Nat, dxRun .start (plainly removing ++ [.fatal 0 false 9]) = some v ∧
    ∀ post s, dxRun v post = some s → (∀ l ∈ post, isBoom l = false) → s.ended = false ∧ s.d.w.wpc ≠ .dead ∧ received (s.d.w.sk 1) = [] := by
  refine ⟨_, rfl, fun post s h hp => ?_⟩
  obtain ⟨_, h2, h3, _, ⟨ls', n, hsn, hc, h6⟩, _⟩ := C111_hangs (pre := plainly removing) (i := 0) (sig := false) (m := 9) rfl rfl rfl rfl h
  refine ⟨h3 hp, h2, ?_⟩
  have hls : ls' = removing := seenAs_plain hsn
  subst hls
  have hn : n = 0 := Nat.le_zero.1 hc.le
  subst hn
  exact List.prefix_nil.1 (h6 1)

/-- C111 fails: the destructor of a sink throws on a client's thread, and while the worker deals with this signal the destructor of the other sink throws, too. Nothing that happens in the program ends the process. -/
theorem C111_signal_negation : ∃ v : DxState Nat, dxRun .start (releasing ++ [.fatal 0 true 9] ++ plainly afterwards ++ [.fatal 1 true 8]) = some v ∧
    ∀ post s, dxRun v post = some s → (∀ l ∈ post, isBoom l = false) → s.ended = false ∧ s.d.w.wpc ≠ .dead := by
  refine ⟨_, rfl, fun post s h hp => ?_⟩
  obtain ⟨_, h2, h3, _⟩ := C111_hangs (pre := releasing ++ [.fatal 0 true 9] ++ plainly afterwards) (i := 1) (sig := true) (m := 8) rfl rfl rfl rfl h
  exact ⟨h3 hp, h2⟩

end G3.Props
