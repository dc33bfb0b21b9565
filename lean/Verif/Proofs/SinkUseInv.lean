import Verif.Proofs.SinkUseStep
import Mathlib.Tactic.ByContra
/-
The invariant of the model of sinks that use the library (`Verif.Model.SinkUse`).
-/
namespace G3.Props
open G3 G3.Spec

variable {M : Type}

theorem putAt_self {α : Type} (f : Nat → α) (i : Nat) (a : α) : putAt f i a i = a := if_pos rfl
theorem putAt_ne {α : Type} (f : Nat → α) {i j : Nat} (a : α) (h : j ≠ i) : putAt f i a j = f j := if_neg h

theorem inCallback_iff {u : UState M} {i : Nat} : inCallback u i = true ↔
    i < u.w.n ∧ (∃ x, (u.w.sk i).running = some x ∧ x ≠ .stop) ∧ (u.w.sk i).blocked = false ∧ u.pc i = .user := by
  unfold inCallback
  simp only [Bool.and_eq_true, decide_eq_true_eq, Bool.not_eq_true', Option.any_eq_true, and_assoc]
  refine and_congr_right fun _ => and_congr_left' ⟨?_, ?_⟩
  · rintro ⟨x, h1, h2⟩; refine ⟨x, h1, ?_⟩; rintro rfl; cases h2
  · rintro ⟨x, h1, h2⟩; refine ⟨x, h1, ?_⟩; cases x <;> first | rfl | exact absurd rfl h2

/-! ### The steps, case by case -/

/-- The state in which no step is possible. -/
def over (u : UState M) : Bool := u.terminated || u.w.ub || u.w.wpc.isDead

/-- The labels of synchronous calls. -/
inductive SyncL (i : Nat) : ULabel M → WLabel M → Prop
  | add : SyncL i (.add i) .add
  | remove (j) : SyncL i (.remove i j) (.remove j)
  | clear : SyncL i (.clear i) .clear

/-- Every branch of `uStep`. -/
inductive UTr (u : UState M) : ULabel M → UState M → Prop
  | base (l) (w) : baseOk u l = true → wStep u.w l = some w → UTr u (.base l) { u with w := w, mine := mineAfter u l }
  | log (i m w) : inCallback u i = true → wStep u.w (.save m) = some w → UTr u (.log i m) { u with w := w }
  | hold (i j w) : inCallback u i = true → wStep u.w (.hold j) = some w → UTr u (.hold i j) { u with w := w, held := putAt u.held i (u.held i ++ [j]) }
  | holdFail (i j c w) : inCallback u i = true → wStep u.w (.holdFail j c) = some w → UTr u (.holdFail i j c) { u with w := w }
  | call (i j c w) : inCallback u i = true → j ∈ u.held i → wStep u.w (.call j c) = some w → UTr u (.call i j c) { u with w := w }
  | relKeep (i j w) : inCallback u i = true → j ∈ u.held i → wStep u.w (.release j) = some w → (w.sk j).reaping = false →
      UTr u (.release i j) { u with w := w, held := putAt u.held i ((u.held i).erase j), pc := putAt u.pc i .user }
  | relSelf (i w) : inCallback u i = true → i ∈ u.held i → wStep u.w (.release i) = some w → (w.sk i).reaping = true →
      UTr u (.release i i) { u with w := w, held := putAt u.held i ((u.held i).erase i), terminated := true, reaper := putAt u.reaper i (some i) }
  | relEnd (i j w) : inCallback u i = true → j ∈ u.held i → wStep u.w (.release j) = some w → (w.sk j).reaping = true → j ≠ i →
      UTr u (.release i j)
        { u with w := w, held := putAt u.held i ((u.held i).erase j), pc := putAt u.pc i (.ending j), reaper := putAt u.reaper j (some i) }
  | reap (i j w) : u.pc i = .ending j → wStep u.w (.reap j) = some w →
      UTr u (.reap i j) { u with w := w, pc := putAt u.pc i .user, reaper := putAt u.reaper j none }
  | get (i j p c) : inCallback u i = true → j < u.w.n → (taskList (u.w.sk j))[p]? = some (.call c) →
      UTr u (.get i j p) { u with pc := putAt u.pc i (.getting j p) }
  | got (i j p) : u.pc i = .getting j p → p < (u.w.sk j).done.length → UTr u (.got i) { u with pc := putAt u.pc i .user }
  | syncUb (i l l' w) : SyncL i l l' → inCallback u i = true → wStep u.w l' = some w → w.ub = true → UTr u l { u with w := w }
  | sync (i l l' w) : SyncL i l l' → inCallback u i = true → wStep u.w l' = some w → w.ub = false →
      UTr u l { u with w := w, pc := putAt u.pc i (.sync u.w.calls.length), caller := putAt u.caller u.w.calls.length (some i) }
  | retKeep (i k w) : u.pc i = .sync k → wStep u.w (.ret k) = some w → (∀ j, addedBy u.w k = some j → (w.sk j).reaping = false) →
      UTr u (.ret i k) { u with w := w, pc := putAt u.pc i .user, caller := putAt u.caller k none }
  | retSelf (i k w) : u.pc i = .sync k → wStep u.w (.ret k) = some w → addedBy u.w k = some i → (w.sk i).reaping = true →
      UTr u (.ret i k) { u with w := w, terminated := true, reaper := putAt u.reaper i (some i), caller := putAt u.caller k none }
  | retEnd (i k j w) : u.pc i = .sync k → wStep u.w (.ret k) = some w → addedBy u.w k = some j → (w.sk j).reaping = true → j ≠ i →
      UTr u (.ret i k) { u with w := w, pc := putAt u.pc i (.ending j), reaper := putAt u.reaper j (some i), caller := putAt u.caller k none }

theorem uTr_of_step {u u' : UState M} {l : ULabel M} (h : uStep u l = some u') : over u = false ∧ UTr u l u' := by
  unfold uStep at h
  split at h
  · cases h
  next ho =>
  refine ⟨by simpa [over] using ho, ?_⟩
  have sy : ∀ (i : Nat) (l' : WLabel M) (l : ULabel M), SyncL i l l' → inCallback u i = true → syncCall u i l' = some u' → UTr u l u' := by
    intro i l' l hl hc hs
    unfold syncCall at hs
    obtain ⟨w, hw, rfl⟩ := Option.map_eq_some_iff.1 hs
    split
    · next hu => exact .syncUb i l l' w hl hc hw hu
    · next hu => exact .sync i l l' w hl hc hw (by simpa using hu)
  cases l with
  | base l =>
    simp only at h
    split at h
    · next hb => obtain ⟨w, hw, rfl⟩ := Option.map_eq_some_iff.1 h; exact .base l w hb hw
    · cases h
  | log i m =>
    simp only at h
    split at h
    · next hb => obtain ⟨w, hw, rfl⟩ := Option.map_eq_some_iff.1 h; exact .log i m w hb hw
    · cases h
  | hold i j =>
    simp only at h
    split at h
    · next hb => obtain ⟨w, hw, rfl⟩ := Option.map_eq_some_iff.1 h; exact .hold i j w hb hw
    · cases h
  | holdFail i j c =>
    simp only at h
    split at h
    · next hb => obtain ⟨w, hw, rfl⟩ := Option.map_eq_some_iff.1 h; exact .holdFail i j c w hb hw
    · cases h
  | call i j c =>
    simp only at h
    split at h
    · next hb =>
      simp only [Bool.and_eq_true, decide_eq_true_eq] at hb
      obtain ⟨w, hw, rfl⟩ := Option.map_eq_some_iff.1 h; exact .call i j c w hb.1 hb.2 hw
    · cases h
  | release i j =>
    simp only at h
    split at h
    · next hb =>
      simp only [Bool.and_eq_true, decide_eq_true_eq] at hb
      obtain ⟨w, hw, rfl⟩ := Option.map_eq_some_iff.1 h
      unfold afterDrop
      split
      · next hr =>
        split
        · next e => subst e; exact .relSelf _ w hb.1 hb.2 hw hr
        · next e => exact .relEnd i j w hb.1 hb.2 hw hr e
      · next hr => exact .relKeep i j w hb.1 hb.2 hw (by simpa using hr)
    · cases h
  | reap i j =>
    simp only at h
    split at h
    · next hb => obtain ⟨w, hw, rfl⟩ := Option.map_eq_some_iff.1 h; exact .reap i j w hb hw
    · cases h
  | get i j p =>
    simp only at h
    split at h
    · next hb =>
      simp only [Bool.and_eq_true, decide_eq_true_eq, Option.any_eq_true] at hb
      obtain ⟨⟨h1, h2⟩, x, hx, hc⟩ := hb
      cases h
      cases x <;> first | exact .get i j p _ h1 h2 hx | cases hc
    · cases h
  | got i =>
    simp only at h
    split at h
    · next j p hp =>
      split at h
      · next hl => cases h; exact .got i j p hp hl
      · cases h
    · cases h
  | add i =>
    simp only at h
    split at h
    · next hb => exact sy i _ _ .add hb h
    · cases h
  | remove i j =>
    simp only at h
    split at h
    · next hb => exact sy i _ _ (.remove j) hb h
    · cases h
  | clear i =>
    simp only at h
    split at h
    · next hb => exact sy i _ _ .clear hb h
    · cases h
  | ret i k =>
    simp only at h
    split at h
    · next hp =>
      obtain ⟨w, hw, rfl⟩ := Option.map_eq_some_iff.1 h
      split
      · next j hj =>
        unfold afterDrop
        split
        · next hr =>
          split
          · next e => subst e; exact .retSelf _ k w hp hw hj hr
          · next e => exact .retEnd i k j w hp hw hj hr e
        · next hr => exact .retKeep i k w hp hw (fun j' e => by rw [hj] at e; cases e; simpa using hr)
      · next hj => exact .retKeep i k w hp hw (fun j' e => by rw [hj] at e; cases e)
    · cases h

/-! ### The projection to the model of the worker -/

/-- The step of the worker model that a step is. -/
def proj : ULabel M → Option (WLabel M)
  | .base l => some l
  | .log _ m => some (.save m)
  | .hold _ j => some (.hold j)
  | .holdFail _ j c => some (.holdFail j c)
  | .call _ j c => some (.call j c)
  | .release _ j => some (.release j)
  | .reap _ j => some (.reap j)
  | .get _ _ _ => none
  | .got _ => none
  | .add _ => some .add
  | .remove _ j => some (.remove j)
  | .clear _ => some .clear
  | .ret _ k => some (.ret k)

theorem proj_step {u u' : UState M} {l : ULabel M} (h : UTr u l u') :
    (∃ l', proj l = some l' ∧ wStep u.w l' = some u'.w) ∨ (proj l = none ∧ u'.w = u.w) := by
  cases h with
  | get => exact Or.inr ⟨rfl, rfl⟩
  | got => exact Or.inr ⟨rfl, rfl⟩
  | syncUb i _ l' w hl hc hw hu => left; cases hl <;> exact ⟨_, rfl, hw⟩
  | sync i _ l' w hl hc hw hu => left; cases hl <;> exact ⟨_, rfl, hw⟩
  | base l w hb hw => exact Or.inl ⟨_, rfl, hw⟩
  | log i m w hc hw => exact Or.inl ⟨_, rfl, hw⟩
  | hold i j w hc hw => exact Or.inl ⟨_, rfl, hw⟩
  | holdFail i j c w hc hw => exact Or.inl ⟨_, rfl, hw⟩
  | call i j c w hc hj hw => exact Or.inl ⟨_, rfl, hw⟩
  | relKeep i j w hc hj hw => exact Or.inl ⟨_, rfl, hw⟩
  | relSelf i w hc hj hw => exact Or.inl ⟨_, rfl, hw⟩
  | relEnd i j w hc hj hw => exact Or.inl ⟨_, rfl, hw⟩
  | reap i j w hp hw => exact Or.inl ⟨_, rfl, hw⟩
  | retKeep i k w hp hw => exact Or.inl ⟨_, rfl, hw⟩
  | retSelf i k w hp hw => exact Or.inl ⟨_, rfl, hw⟩
  | retEnd i k j w hp hw => exact Or.inl ⟨_, rfl, hw⟩

theorem proj_run {ls : List (ULabel M)} : ∀ {u u' : UState M}, uRun u ls = some u' → wRun u.w (ls.filterMap proj) = some u'.w := by
  induction ls with
  | nil => intro u u' h; cases h; rfl
  | cons l ls ih =>
    intro u u' h
    rw [uRun] at h
    obtain ⟨v, hv, hr⟩ := Option.bind_eq_some_iff.1 h
    rcases proj_step (uTr_of_step hv).2 with ⟨l', e, hw⟩ | ⟨e, hw⟩
    · rw [List.filterMap_cons_some e, wRun, hw]; exact ih hr
    · rw [List.filterMap_cons_none e, ← hw]; exact ih hr

/-! ### The invariant -/

/-- The part of the invariant that does not count references. -/
structure UBody (u : UState M) : Prop where
  all : AllInv u.w
  busy : ∀ i, u.pc i ≠ .user ∨ u.held i ≠ [] → i < u.w.n ∧ ∃ x, (u.w.sk i).running = some x ∧ x ≠ .stop
  awake : ∀ i, u.pc i ≠ .user → (u.w.sk i).blocked = false
  ends : ∀ i j, u.pc i = .ending j → j ≠ i ∧ j < u.w.n ∧ (u.w.sk j).reaping = true ∧ u.reaper j = some i
  reaps : ∀ i j, u.reaper j = some i → u.terminated = false → u.pc i = .ending j
  gets : ∀ i j p, u.pc i = .getting j p → j < u.w.n ∧ ∃ c, (taskList (u.w.sk j))[p]? = some (.call c)
  syncs : ∀ i k, u.pc i = .sync k → u.caller k = some i ∧ addedBy u.w k ≠ some i ∧ ∃ c, u.w.calls[k]? = some c ∧ c.returned = false
  callers : ∀ i k, u.caller k = some i → u.terminated = false → u.pc i = .sync k
  callerLt : ∀ i k, u.caller k = some i → k < u.w.calls.length

theorem addedBy_of {w : WState M} {k j : Nat} {c : WCall} (hk : w.calls[k]? = some c) : addedBy w k = some j ↔ c.kind = .add j := by
  unfold addedBy
  rw [hk]
  obtain ⟨kind, pos, ret⟩ := c
  cases kind <;> simp

/-- Steps of the worker model that leave the callbacks alone. -/
theorem body_frame {u : UState M} {w : WState M} {l : WLabel M} (h : UBody u) (hw : wStep u.w l = some w)
    (h1 : ∀ i, u.pc i ≠ .user ∨ u.held i ≠ [] → l ≠ .sinkFin i) (h2 : ∀ i m, u.pc i ≠ .user → l ≠ .sinkFatal i m)
    (h3 : ∀ i j, u.pc i = .ending j → l ≠ .reap j) (h4 : ∀ i k, u.pc i = .sync k → l ≠ .ret k) : UBody { u with w := w } := by
  have sk := skTr_step h.all hw
  obtain ⟨cl, _, _, hn⟩ := clTr_step hw
  have hle : u.w.n ≤ w.n := by rcases hn with hn | hn <;> omega
  refine ⟨allInv_step h.all hw, ?_, ?_, ?_, h.reaps, ?_, ?_, h.callers, ?_⟩
  · intro i hb
    obtain ⟨hi, x, hx, hs⟩ := h.busy i hb
    exact ⟨Nat.lt_of_lt_of_le hi hle, x, skTr_running (sk i) (h1 i hb) hx, hs⟩
  · intro i hb
    exact (skTr_blocked (sk i) (fun m => h2 i m hb)).trans (h.awake i hb)
  · intro i j hp
    obtain ⟨a, b, c, d⟩ := h.ends i j hp
    exact ⟨a, Nat.lt_of_lt_of_le b hle, skTr_reaping (sk j) (h3 i j hp) c, d⟩
  · intro i j p hp
    obtain ⟨a, c, hc⟩ := h.gets i j p hp
    exact ⟨Nat.lt_of_lt_of_le a hle, c, skTr_tasks (h.all.w.sinks.loc j) (sk j) (by simp) hc⟩
  · intro i k hp
    obtain ⟨a, b, c, hc, hr⟩ := h.syncs i k hp
    have hc' := clTr_get cl hc (h4 i k hp)
    refine ⟨a, ?_, c, hc', hr⟩
    intro e
    exact b ((addedBy_of hc).2 ((addedBy_of (w := w) hc').1 e))
  · intro i k hk
    exact Nat.lt_of_lt_of_le (h.callerLt i k hk) (clTr_len cl)

/-- Thread `i` is in the code of the user. -/
structure InUser (u : UState M) (i : Nat) : Prop where
  lt : i < u.w.n
  run : ∃ x, (u.w.sk i).running = some x ∧ x ≠ .stop
  awake : (u.w.sk i).blocked = false
  pc : u.pc i = .user

theorem inUser_of {u : UState M} {i : Nat} (h : inCallback u i = true) : InUser u i := by
  obtain ⟨a, b, c, d⟩ := inCallback_iff.1 h
  exact ⟨a, b, c, d⟩

theorem inUser_frame {u : UState M} {w : WState M} {l : WLabel M} {i : Nat} (h : UBody u) (hu : InUser u i) (hw : wStep u.w l = some w)
    (h1 : l ≠ .sinkFin i) (h2 : ∀ m, l ≠ .sinkFatal i m) : InUser { u with w := w } i := by
  have sk := skTr_step h.all hw i
  obtain ⟨_, _, _, hn⟩ := clTr_step hw
  obtain ⟨x, hx, hs⟩ := hu.run
  exact ⟨by have := hu.lt; show i < w.n; rcases hn with hn | hn <;> omega, ⟨x, skTr_running sk h1 hx, hs⟩,
    (skTr_blocked sk h2).trans hu.awake, hu.pc⟩

/-- The references held by a callback change. -/
theorem body_held {u : UState M} {i : Nat} (h : UBody u) (hu : InUser u i) (l : List Nat) : UBody { u with held := putAt u.held i l } := by
  refine ⟨h.all, ?_, h.awake, h.ends, h.reaps, h.gets, h.syncs, h.callers, h.callerLt⟩
  intro j hb
  by_cases hj : j = i
  · subst hj; exact ⟨hu.lt, hu.run⟩
  · refine h.busy j ?_
    rcases hb with hb | hb
    · exact Or.inl hb
    · right
      simp only [putAt_ne _ _ hj] at hb
      exact hb

/-- A callback begins to wait for the thread of a sink in `~Sink`. -/
theorem body_ending {u : UState M} {i j : Nat} (h : UBody u) (hu : InUser u i) (hj : j ≠ i) (hl : j < u.w.n) (hr : (u.w.sk j).reaping = true)
    (hf : ∀ k, u.pc k ≠ .ending j) (ht : u.terminated = false) :
    UBody { u with pc := putAt u.pc i (.ending j), reaper := putAt u.reaper j (some i) } := by
  refine ⟨h.all, ?_, ?_, ?_, ?_, ?_, ?_, ?_, h.callerLt⟩
  · intro k hb
    by_cases hk : k = i
    · subst hk; exact ⟨hu.lt, hu.run⟩
    · simp only [putAt_ne _ _ hk] at hb; exact h.busy k hb
  · intro k hb
    by_cases hk : k = i
    · subst hk; exact hu.awake
    · simp only [putAt_ne _ _ hk] at hb; exact h.awake k hb
  · intro k m hp
    by_cases hk : k = i
    · subst hk
      simp only [putAt_self] at hp
      cases hp
      exact ⟨hj, hl, hr, putAt_self _ _ _⟩
    · simp only [putAt_ne _ _ hk] at hp
      obtain ⟨a, b, c, d⟩ := h.ends k m hp
      have hm : m ≠ j := by rintro rfl; exact hf k hp
      exact ⟨a, b, c, by show putAt u.reaper j (some i) m = _; rw [putAt_ne _ _ hm]; exact d⟩
  · intro k m hp _
    by_cases hm : m = j
    · subst hm
      simp only [putAt_self] at hp
      cases hp
      exact putAt_self _ _ _
    · simp only [putAt_ne _ _ hm] at hp
      have := h.reaps k m hp ht
      have hk : k ≠ i := by rintro rfl; rw [hu.pc] at this; cases this
      show putAt u.pc i _ k = _
      rw [putAt_ne _ _ hk]; exact this
  · intro k m p hp
    by_cases hk : k = i
    · subst hk; simp only [putAt_self] at hp; cases hp
    · simp only [putAt_ne _ _ hk] at hp; exact h.gets k m p hp
  · intro k m hp
    by_cases hk : k = i
    · subst hk; simp only [putAt_self] at hp; cases hp
    · simp only [putAt_ne _ _ hk] at hp; exact h.syncs k m hp
  · intro k m hc _
    have := h.callers k m hc ht
    have hk : k ≠ i := by rintro rfl; rw [hu.pc] at this; cases this
    show putAt u.pc i _ k = _
    rw [putAt_ne _ _ hk]; exact this

/-- A callback begins to wait for a result. -/
theorem body_getting {u : UState M} {i j p c : Nat} (h : UBody u) (hu : InUser u i) (hl : j < u.w.n)
    (hc : (taskList (u.w.sk j))[p]? = some (.call c)) (ht : u.terminated = false) : UBody { u with pc := putAt u.pc i (.getting j p) } := by
  refine ⟨h.all, ?_, ?_, ?_, ?_, ?_, ?_, ?_, h.callerLt⟩
  · intro k hb
    by_cases hk : k = i
    · subst hk; exact ⟨hu.lt, hu.run⟩
    · simp only [putAt_ne _ _ hk] at hb; exact h.busy k hb
  · intro k hb
    by_cases hk : k = i
    · subst hk; exact hu.awake
    · simp only [putAt_ne _ _ hk] at hb; exact h.awake k hb
  · intro k m hp
    by_cases hk : k = i
    · subst hk; simp only [putAt_self] at hp; cases hp
    · simp only [putAt_ne _ _ hk] at hp; exact h.ends k m hp
  · intro k m hp _
    have := h.reaps k m hp ht
    have hk : k ≠ i := by rintro rfl; rw [hu.pc] at this; cases this
    show putAt u.pc i _ k = _
    rw [putAt_ne _ _ hk]; exact this
  · intro k m q hp
    by_cases hk : k = i
    · subst hk; simp only [putAt_self] at hp; cases hp; exact ⟨hl, c, hc⟩
    · simp only [putAt_ne _ _ hk] at hp; exact h.gets k m q hp
  · intro k m hp
    by_cases hk : k = i
    · subst hk; simp only [putAt_self] at hp; cases hp
    · simp only [putAt_ne _ _ hk] at hp; exact h.syncs k m hp
  · intro k m hc _
    have := h.callers k m hc ht
    have hk : k ≠ i := by rintro rfl; rw [hu.pc] at this; cases this
    show putAt u.pc i _ k = _
    rw [putAt_ne _ _ hk]; exact this

/-- A callback begins to wait in a synchronous call. -/
theorem body_sync {u : UState M} {i q : Nat} {c : WCall} (h : UBody u) (hu : InUser u i) (hq : u.w.calls[q]? = some c) (hr : c.returned = false)
    (ha : c.kind ≠ .add i) (hf : ∀ k, u.caller q ≠ some k) (ht : u.terminated = false) :
    UBody { u with pc := putAt u.pc i (.sync q), caller := putAt u.caller q (some i) } := by
  refine ⟨h.all, ?_, ?_, ?_, ?_, ?_, ?_, ?_, ?_⟩
  · intro k hb
    by_cases hk : k = i
    · subst hk; exact ⟨hu.lt, hu.run⟩
    · simp only [putAt_ne _ _ hk] at hb; exact h.busy k hb
  · intro k hb
    by_cases hk : k = i
    · subst hk; exact hu.awake
    · simp only [putAt_ne _ _ hk] at hb; exact h.awake k hb
  · intro k m hp
    by_cases hk : k = i
    · subst hk; simp only [putAt_self] at hp; cases hp
    · simp only [putAt_ne _ _ hk] at hp; exact h.ends k m hp
  · intro k m hp _
    have := h.reaps k m hp ht
    have hk : k ≠ i := by rintro rfl; rw [hu.pc] at this; cases this
    show putAt u.pc i _ k = _
    rw [putAt_ne _ _ hk]; exact this
  · intro k m p hp
    by_cases hk : k = i
    · subst hk; simp only [putAt_self] at hp; cases hp
    · simp only [putAt_ne _ _ hk] at hp; exact h.gets k m p hp
  · intro k m hp
    by_cases hk : k = i
    · subst hk
      simp only [putAt_self] at hp
      cases hp
      exact ⟨putAt_self _ _ _, fun e => ha ((addedBy_of hq).1 e), c, hq, hr⟩
    · simp only [putAt_ne _ _ hk] at hp
      obtain ⟨a, b⟩ := h.syncs k m hp
      have hm : m ≠ q := by rintro rfl; exact hf k a
      exact ⟨by show putAt u.caller q _ m = _; rw [putAt_ne _ _ hm]; exact a, b⟩
  · intro k m hc _
    by_cases hmq : m = q
    · subst hmq
      simp only [putAt_self] at hc
      cases hc
      exact putAt_self _ _ _
    · simp only [putAt_ne _ _ hmq] at hc
      have := h.callers k m hc ht
      have hk : k ≠ i := by rintro rfl; rw [hu.pc] at this; cases this
      show putAt u.pc i _ k = _
      rw [putAt_ne _ _ hk]; exact this
  · intro k m hc
    by_cases hmq : m = q
    · subst hmq; exact (List.getElem?_eq_some_iff.1 hq).1
    · simp only [putAt_ne _ _ hmq] at hc; exact h.callerLt k m hc

/-- A callback stops waiting. -/
theorem body_back {u : UState M} {i : Nat} (h : UBody u) (r : Nat → Option Nat) (q : Nat → Option Nat)
    (hr : ∀ k m, r m = some k → u.reaper m = some k ∧ k ≠ i) (hr' : ∀ k m, u.pc k = .ending m → k ≠ i → r m = some k)
    (hq : ∀ k m, q m = some k → u.caller m = some k ∧ k ≠ i) (hq' : ∀ k m, u.pc k = .sync m → k ≠ i → q m = some k) :
    UBody { u with pc := putAt u.pc i .user, reaper := r, caller := q } := by
  refine ⟨h.all, ?_, ?_, ?_, ?_, ?_, ?_, ?_, fun k m e => h.callerLt k m (hq k m e).1⟩
  · intro k hb
    by_cases hk : k = i
    · subst hk
      rcases hb with hb | hb
      · exact absurd (putAt_self _ _ _) hb
      · exact h.busy _ (Or.inr hb)
    · simp only [putAt_ne _ _ hk] at hb; exact h.busy k hb
  · intro k hb
    by_cases hk : k = i
    · subst hk; exact absurd (putAt_self _ _ _) hb
    · simp only [putAt_ne _ _ hk] at hb; exact h.awake k hb
  · intro k m hp
    by_cases hk : k = i
    · subst hk; simp only [putAt_self] at hp; cases hp
    · simp only [putAt_ne _ _ hk] at hp
      obtain ⟨a, b, c, d⟩ := h.ends k m hp
      exact ⟨a, b, c, hr' k m hp hk⟩
  · intro k m hp ht
    obtain ⟨a, b⟩ := hr k m hp
    show putAt u.pc i _ k = _
    rw [putAt_ne _ _ b]; exact h.reaps k m a ht
  · intro k m p hp
    by_cases hk : k = i
    · subst hk; simp only [putAt_self] at hp; cases hp
    · simp only [putAt_ne _ _ hk] at hp; exact h.gets k m p hp
  · intro k m hp
    by_cases hk : k = i
    · subst hk; simp only [putAt_self] at hp; cases hp
    · simp only [putAt_ne _ _ hk] at hp
      obtain ⟨a, b⟩ := h.syncs k m hp
      exact ⟨hq' k m hp hk, b⟩
  · intro k m hc ht
    obtain ⟨a, b⟩ := hq k m hc
    show putAt u.pc i _ k = _
    rw [putAt_ne _ _ b]; exact h.callers k m a ht

/-- `std::terminate`. -/
theorem body_terminated {u : UState M} {i : Nat} (h : UBody u) (hf : ∀ k, u.pc k ≠ .ending i) (hq : ∀ k m, u.pc k = .sync m → u.caller m = some k) :
    UBody { u with terminated := true, reaper := putAt u.reaper i (some i) } := by
  refine ⟨h.all, h.busy, h.awake, ?_, fun _ _ _ e => (by cases e), h.gets, h.syncs, fun _ _ _ e => (by cases e), h.callerLt⟩
  intro k m hp
  obtain ⟨a, b, c, d⟩ := h.ends k m hp
  have hm : m ≠ i := by rintro rfl; exact hf k hp
  exact ⟨a, b, c, by show putAt u.reaper i (some i) m = _; rw [putAt_ne _ _ hm]; exact d⟩

/-- A sink to which a reference is held is not being destroyed. -/
theorem reaping_false {w : WState M} (hi : AllInv w) {j : Nat} (ho : owned w j = true) (hl : j < w.n) : (w.sk j).reaping = false := by
  cases e : (w.sk j).reaping with
  | false => rfl
  | true =>
    have h1 := ((hi.w.sinks.loc j).reap e).1
    have h2 := hi.w.sinks.own j hl
    rw [ho, h1] at h2; cases h2

theorem release_owned {w w' : WState M} {j : Nat} (h : wStep w (.release j) = some w') : j < w.n ∧ 0 < (w.sk j).refs ∧ owned w j = true := by
  unfold wStep at h
  split at h
  · cases h
  · simp only at h
    split at h
    · next hc => exact ⟨hc.1, hc.2, owned_iff.2 (Or.inl hc.2)⟩
    · cases h

theorem ret_owned {w : WState M} {k j : Nat} {c : WCall} (hi : AllInv w) (hk : w.calls[k]? = some c) (hr : c.returned = false)
    (ha : c.kind = .add j) : j < w.n ∧ owned w j = true := by
  refine ⟨hi.w.calls.ids c (List.mem_of_getElem? hk) j (Or.inl ha), owned_iff.2 (Or.inr (Or.inr (Or.inl ?_)))⟩
  unfold adding
  rw [List.any_eq_true]
  exact ⟨c, List.mem_of_getElem? hk, by simp [ha, hr]⟩

theorem ret_back {u : UState M} {i k : Nat} {w : WState M} (h : UBody u) (hterm : u.terminated = false) (hp : u.pc i = .sync k)
    (hw : wStep u.w (.ret k) = some w) : UBody { u with w := w, pc := putAt u.pc i .user, caller := putAt u.caller k none } := by
  have h1 : UBody { u with pc := putAt u.pc i .user, reaper := u.reaper, caller := putAt u.caller k none } := by
    refine body_back h _ _ ?_ (fun m j e _ => (h.ends m j e).2.2.2) ?_ ?_
    · intro m j e
      refine ⟨e, ?_⟩
      rintro rfl
      have := h.reaps _ _ e hterm
      rw [hp] at this; cases this
    · intro m q e
      by_cases hq : q = k
      · subst hq; rw [putAt_self] at e; cases e
      · rw [putAt_ne _ _ hq] at e
        refine ⟨e, ?_⟩
        rintro rfl
        have := h.callers _ _ e hterm
        rw [hp] at this; cases this; exact hq rfl
    · intro m q e hm
      have hq : q ≠ k := by
        rintro rfl
        have h1 := (h.syncs _ _ e).1
        rw [(h.syncs _ _ hp).1] at h1; cases h1; exact hm rfl
      rw [putAt_ne _ _ hq]; exact (h.syncs _ _ e).1
  refine body_frame h1 hw (fun _ _ e => (by cases e)) (fun _ _ _ e => (by cases e)) (fun _ _ _ e => (by cases e)) ?_
  intro m q e el
  cases el
  have := (h1.syncs m k e).1
  simp only [putAt_self] at this
  cases this

theorem body_step {u u' : UState M} {l : ULabel M} (h : UBody u) (ho : over u = false) (ht : UTr u l u') : UBody u' := by
  have hterm : u.terminated = false := by
    unfold over at ho
    cases e : u.terminated with
    | false => rfl
    | true => rw [e] at ho; cases ho
  cases ht with
  | base l w hb hw =>
    refine { (body_frame h hw ?_ ?_ ?_ ?_ : UBody { u with w := w }) with .. }
    · rintro i hi rfl
      simp only [baseOk, Bool.and_eq_true, decide_eq_true_eq] at hb
      rcases hi with hi | hi
      · exact hi hb.1
      · exact hi hb.2
    · rintro i m hi rfl
      simp only [baseOk, decide_eq_true_eq] at hb
      exact hi hb
    · rintro i j hp rfl
      simp only [baseOk, decide_eq_true_eq] at hb
      rw [(h.ends i j hp).2.2.2] at hb; cases hb
    · rintro i k hp rfl
      simp only [baseOk, decide_eq_true_eq] at hb
      rw [(h.syncs i k hp).1] at hb; cases hb
  | log i m w hc hw =>
    exact body_frame h hw (fun _ _ e => (by cases e)) (fun _ _ _ e => (by cases e)) (fun _ _ _ e => (by cases e)) (fun _ _ _ e => (by cases e))
  | hold i j w hc hw =>
    exact body_held (u := { u with w := w })
      (body_frame h hw (fun _ _ e => (by cases e)) (fun _ _ _ e => (by cases e)) (fun _ _ _ e => (by cases e)) (fun _ _ _ e => (by cases e)))
      (inUser_frame h (inUser_of hc) hw (fun e => (by cases e)) (fun _ e => (by cases e))) _
  | holdFail i j c w hc hw =>
    exact body_frame h hw (fun _ _ e => (by cases e)) (fun _ _ _ e => (by cases e)) (fun _ _ _ e => (by cases e)) (fun _ _ _ e => (by cases e))
  | call i j c w hc hj hw =>
    exact body_frame h hw (fun _ _ e => (by cases e)) (fun _ _ _ e => (by cases e)) (fun _ _ _ e => (by cases e)) (fun _ _ _ e => (by cases e))
  | relKeep i j w hc hj hw hr =>
    have hu := inUser_of hc
    have h1 : UBody { u with w := w } :=
      body_frame h hw (fun _ _ e => (by cases e)) (fun _ _ _ e => (by cases e)) (fun _ _ _ e => (by cases e)) (fun _ _ _ e => (by cases e))
    have hu1 : InUser { u with w := w } i := inUser_frame h hu hw (fun e => (by cases e)) (fun _ e => (by cases e))
    have h2 := body_held h1 hu1 ((u.held i).erase j)
    have : putAt u.pc i .user = u.pc := by
      funext k
      by_cases hk : k = i
      · subst hk; rw [putAt_self]; exact hu.pc.symm
      · rw [putAt_ne _ _ hk]
    rw [this]
    exact h2
  | relSelf i w hc hj hw hr =>
    have hu := inUser_of hc
    have h1 : UBody { u with w := w } :=
      body_frame h hw (fun _ _ e => (by cases e)) (fun _ _ _ e => (by cases e)) (fun _ _ _ e => (by cases e)) (fun _ _ _ e => (by cases e))
    have hu1 : InUser { u with w := w } i := inUser_frame h hu hw (fun e => (by cases e)) (fun _ e => (by cases e))
    have h2 := body_held h1 hu1 ((u.held i).erase i)
    obtain ⟨a, b, c⟩ := release_owned hw
    refine body_terminated h2 ?_ (fun k m e => (h.syncs k m e).1)
    intro k e
    have := (h.ends k i e).2.2.1
    rw [reaping_false h.all c a] at this; cases this
  | relEnd i j w hc hj hw hr hne =>
    have hu := inUser_of hc
    have h1 : UBody { u with w := w } :=
      body_frame h hw (fun _ _ e => (by cases e)) (fun _ _ _ e => (by cases e)) (fun _ _ _ e => (by cases e)) (fun _ _ _ e => (by cases e))
    have hu1 : InUser { u with w := w } i := inUser_frame h hu hw (fun e => (by cases e)) (fun _ e => (by cases e))
    have h2 := body_held h1 hu1 ((u.held i).erase j)
    obtain ⟨a, b, c⟩ := release_owned hw
    obtain ⟨_, _, _, hn⟩ := clTr_step hw
    refine body_ending h2 ⟨hu1.lt, hu1.run, hu1.awake, hu1.pc⟩ hne (by show j < w.n; rcases hn with hn | hn <;> omega) hr ?_ hterm
    intro k e
    have := (h.ends k j e).2.2.1
    rw [reaping_false h.all c a] at this; cases this
  | reap i j w hp hw =>
    have h1 : UBody { u with pc := putAt u.pc i .user, reaper := putAt u.reaper j none, caller := u.caller } := by
      refine body_back h _ _ ?_ ?_ ?_ ?_
      · intro k m e
        by_cases hm : m = j
        · subst hm; rw [putAt_self] at e; cases e
        · rw [putAt_ne _ _ hm] at e
          refine ⟨e, ?_⟩
          rintro rfl
          have := h.reaps _ _ e hterm
          rw [hp] at this; cases this; exact hm rfl
      · intro k m e hk
        have hm : m ≠ j := by
          rintro rfl
          have h1 := (h.ends _ _ e).2.2.2
          rw [(h.ends _ _ hp).2.2.2] at h1
          cases h1; exact hk rfl
        rw [putAt_ne _ _ hm]; exact (h.ends _ _ e).2.2.2
      · intro k m e
        refine ⟨e, ?_⟩
        rintro rfl
        have := h.callers _ _ e hterm
        rw [hp] at this; cases this
      · intro k m e hk; exact (h.syncs k m e).1
    refine body_frame h1 hw (fun _ _ e => (by cases e)) (fun _ _ _ e => (by cases e)) ?_ (fun _ _ _ e => (by cases e))
    intro k m e el
    cases el
    have := (h1.ends k j e).2.2.2
    simp only [putAt_self] at this
    cases this
  | get i j p c hc hl hx => exact body_getting h (inUser_of hc) hl hx hterm
  | got i j p hp hl =>
    refine body_back h u.reaper u.caller ?_ (fun k m e _ => (h.ends k m e).2.2.2) ?_ (fun k m e _ => (h.syncs k m e).1)
    · intro k m e
      refine ⟨e, ?_⟩
      rintro rfl
      have := h.reaps _ _ e hterm
      rw [hp] at this; cases this
    · intro k m e
      refine ⟨e, ?_⟩
      rintro rfl
      have := h.callers _ _ e hterm
      rw [hp] at this; cases this
  | syncUb i _ l' w hl hc hw hu =>
    refine body_frame h hw ?_ ?_ ?_ ?_ <;> cases hl <;> intros <;> intro e <;> cases e
  | sync i _ l' w hl hc hw hu =>
    have hu' := inUser_of hc
    have h1 : UBody { u with w := w } := by
      refine body_frame h hw ?_ ?_ ?_ ?_ <;> cases hl <;> intros <;> intro e <;> cases e
    have hu1 : InUser { u with w := w } i := by
      refine inUser_frame h hu' hw ?_ ?_ <;> cases hl <;> intros <;> (try intro e) <;> simp_all
    have hb : beginsKind u.w.n l' ≠ none := by cases hl <;> simp [beginsKind]
    obtain ⟨_, hmore, _, _⟩ := clTr_step hw
    obtain ⟨d, hd, hk, hcs⟩ := hmore hb hu
    refine body_sync (c := d) h1 hu1 (by show w.calls[_]? = _; rw [hcs]; simp) hd ?_ ?_ hterm
    · intro e
      rw [e] at hk
      have := hu'.lt
      cases hl with
      | add => simp only [beginsKind, Option.some.injEq, WKind.add.injEq] at hk; omega
      | remove => simp [beginsKind] at hk
      | clear => simp [beginsKind] at hk
    · intro k e
      have := h.callerLt k _ e
      omega
  | retKeep i k w hp hw hj => exact ret_back h hterm hp hw
  | retSelf i k w hp hw hj hr => exact absurd hj (h.syncs i k hp).2.1
  | retEnd i k j w hp hw hj hr hne =>
    have h1 := ret_back h hterm hp hw
    obtain ⟨_, _, c, hc, hcr⟩ := h.syncs i k hp
    obtain ⟨a, b⟩ := ret_owned h.all hc hcr ((addedBy_of hc).1 hj)
    obtain ⟨_, _, _, hn⟩ := clTr_step hw
    have hb := h.busy i (Or.inl (by rw [hp]; simp))
    have hu1 : InUser { u with w := w, pc := putAt u.pc i .user, caller := putAt u.caller k none } i := by
      have hb1 := h1.busy i
      obtain ⟨x, hx, hs⟩ := hb.2
      have sk := skTr_step h.all hw i
      exact ⟨by have := hb.1; show i < w.n; rcases hn with hn | hn <;> omega, ⟨x, skTr_running sk (by simp) hx, hs⟩,
        (skTr_blocked sk (by simp)).trans (h.awake i (by rw [hp]; simp)), putAt_self _ _ _⟩
    have h2 := body_ending h1 hu1 hne (by show j < w.n; rcases hn with hn | hn <;> omega) hr (by
      intro m e
      have hm : m ≠ i := by rintro rfl; simp only [putAt_self] at e; cases e
      simp only [putAt_ne _ _ hm] at e
      have := (h.ends m j e).2.2.1
      rw [reaping_false h.all b a] at this; cases this) hterm
    have e : putAt (putAt u.pc i .user) i (.ending j) = putAt u.pc i (.ending j) := by
      funext m
      by_cases hm : m = i
      · subst hm; rw [putAt_self, putAt_self]
      · rw [putAt_ne _ _ hm, putAt_ne _ _ hm, putAt_ne _ _ hm]
    simp only [e] at h2
    exact h2

/-! ### The references -/

theorem hold_refs {w w' : WState M} {j : Nat} (h : wStep w (.hold j) = some w') (m : Nat) :
    j < w.n ∧ (w'.sk m).refs = (w.sk m).refs + (if m = j then 1 else 0) := by
  unfold wStep at h
  split at h
  · cases h
  · simp only at h
    split at h
    · next hc =>
      cases h
      refine ⟨hc.1, ?_⟩
      by_cases hm : m = j
      · subst hm; simp [updSink_self]
      · simp [updSink_ne _ _ hm, hm]
    · cases h

theorem release_refs {w w' : WState M} {j : Nat} (h : wStep w (.release j) = some w') (m : Nat) :
    (w'.sk m).refs = (w.sk m).refs - (if m = j then 1 else 0) := by
  unfold wStep at h
  split at h
  · cases h
  · simp only at h
    split at h
    · simp only [Option.some.injEq] at h
      subst h
      unfold clientDrop
      by_cases hm : m = j
      · subst hm
        split <;> simp [updSink_self, SinkSt.stop]
      · split <;> simp [updSink_ne _ _ hm, hm]
    · cases h

/-- All references: those of the clients and those of the callbacks. -/
def RefsOk (u : UState M) : Prop := ∀ j, (u.w.sk j).refs = u.mine j + sumTo (fun i => (u.held i).count j) u.w.n

theorem le_sumTo {f : Nat → Nat} {i : Nat} : ∀ {n}, i < n → f i ≤ sumTo f n := by
  intro n
  induction n with
  | zero => intro h; omega
  | succ n ih =>
    intro h
    rw [sumTo]
    by_cases hi : i = n
    · subst hi; omega
    · have := ih (by omega); omega

theorem refs_frame {u : UState M} {w : WState M} {l : WLabel M} (h : UBody u) (hr : RefsOk u) (hw : wStep u.w l = some w)
    (h1 : ∀ j, l ≠ .hold j) (h2 : ∀ j, l ≠ .release j) : RefsOk { u with w := w } := by
  intro j
  have sk := skTr_step h.all hw j
  obtain ⟨_, _, _, hn⟩ := clTr_step hw
  show (w.sk j).refs = u.mine j + sumTo _ w.n
  rw [skTr_refs sk (h1 j) (h2 j), hr j]
  rcases hn with hn | ⟨_, hn⟩
  · rw [hn]
  · rw [hn, sumTo]
    have : u.held u.w.n = [] := by
      by_contra hne
      have := (h.busy u.w.n (Or.inr hne)).1
      omega
    rw [this]; simp

theorem hold_n {w w' : WState M} {l : WLabel M} (h : wStep w l = some w') (hl : l ≠ .add) : w'.n = w.n := by
  obtain ⟨_, _, _, hn⟩ := clTr_step h
  rcases hn with hn | ⟨e, _⟩
  · exact hn
  · exact absurd e hl

theorem refs_held {u : UState M} {w : WState M} {i : Nat} {e : List Nat} (hr : RefsOk u) (hi : i < u.w.n) (hn : w.n = u.w.n)
    (h : ∀ m, (w.sk m).refs + (u.held i).count m = (u.w.sk m).refs + e.count m) :
    RefsOk { u with w := w, held := putAt u.held i e } := by
  intro m
  show (w.sk m).refs = u.mine m + sumTo (fun k => (putAt u.held i e k).count m) w.n
  have hs := sumTo_change (f := fun k => (u.held k).count m) (g := fun k => (putAt u.held i e k).count m) (i := i) u.w.n hi
    (fun k hk => by simp only [putAt_ne _ _ hk])
  simp only [putAt_self] at hs
  have := hr m
  have := h m
  rw [hn]
  omega

theorem count_erase' (l : List Nat) (j m : Nat) (h : j ∈ l) : (l.erase j).count m + (if m = j then 1 else 0) = l.count m := by
  by_cases e : m = j
  · subst e
    rw [List.count_erase_self, if_pos rfl]
    have := List.count_pos_iff.2 h
    omega
  · rw [List.count_erase_of_ne e, if_neg e]; rfl

theorem uRefs_step {u u' : UState M} {l : ULabel M} (h : UBody u) (hr : RefsOk u) (ht : UTr u l u') : RefsOk u' := by
  have rel : ∀ i j w, inCallback u i = true → j ∈ u.held i → wStep u.w (.release j) = some w →
      RefsOk { u with w := w, held := putAt u.held i ((u.held i).erase j) } := by
    intro i j w hc hj hw
    refine refs_held hr (inUser_of hc).lt (hold_n hw (by simp)) ?_
    intro m
    have h1 := release_refs hw m
    have h2 := count_erase' (u.held i) j m hj
    have h3 := (release_owned hw).2.1
    by_cases e : m = j
    · subst e; simp only [if_true] at h1 h2; omega
    · simp only [if_neg e] at h1 h2; omega
  cases ht with
  | base l w hb hw =>
    by_cases h1 : ∃ j, l = .hold j
    · obtain ⟨j, rfl⟩ := h1
      intro m
      show (w.sk m).refs = putAt u.mine j (u.mine j + 1) m + sumTo (fun i => (u.held i).count m) w.n
      rw [hold_n hw (by simp), (hold_refs hw m).2, hr m]
      by_cases e : m = j
      · subst e; rw [putAt_self, if_pos rfl]; omega
      · rw [putAt_ne _ _ e, if_neg e]; omega
    · by_cases h2 : ∃ j, l = .release j
      · obtain ⟨j, rfl⟩ := h2
        intro m
        simp only [baseOk, decide_eq_true_eq] at hb
        show (w.sk m).refs = putAt u.mine j (u.mine j - 1) m + sumTo (fun i => (u.held i).count m) w.n
        rw [hold_n hw (by simp), release_refs hw m, hr m]
        by_cases e : m = j
        · subst e; rw [putAt_self, if_pos rfl]; omega
        · rw [putAt_ne _ _ e, if_neg e]; omega
      · have e : mineAfter u l = u.mine := by
          cases l <;> first | rfl | exact absurd ⟨_, rfl⟩ h1 | exact absurd ⟨_, rfl⟩ h2
        rw [e]
        exact refs_frame h hr hw (fun j e => h1 ⟨j, e⟩) (fun j e => h2 ⟨j, e⟩)
  | log i m w hc hw => exact refs_frame h hr hw (fun _ e => (by cases e)) (fun _ e => (by cases e))
  | hold i j w hc hw =>
    refine refs_held hr (inUser_of hc).lt (hold_n hw (by simp)) ?_
    intro m
    have h1 := (hold_refs hw m).2
    rw [List.count_append, List.count_singleton]
    by_cases e : m = j
    · subst e; simp only [if_true] at h1; simp; omega
    · have : (j == m) = false := by simp; exact fun e' => e e'.symm
      rw [this]; simp only [if_neg e] at h1; simp; omega
  | holdFail i j c w hc hw => exact refs_frame h hr hw (fun _ e => (by cases e)) (fun _ e => (by cases e))
  | call i j c w hc hj hw => exact refs_frame h hr hw (fun _ e => (by cases e)) (fun _ e => (by cases e))
  | relKeep i j w hc hj hw hr => exact rel i j w hc hj hw
  | relSelf i w hc hj hw hr => exact rel i i w hc hj hw
  | relEnd i j w hc hj hw hr hne => exact rel i j w hc hj hw
  | reap i j w hp hw => exact refs_frame h hr hw (fun _ e => (by cases e)) (fun _ e => (by cases e))
  | get i j p c hc hl hx => exact hr
  | got i j p hp hl => exact hr
  | syncUb i _ l' w hl hc hw hu =>
    refine refs_frame h hr hw ?_ ?_ <;> cases hl <;> intro j e <;> cases e
  | sync i _ l' w hl hc hw hu =>
    refine (refs_frame h hr hw ?_ ?_ : RefsOk { u with w := w }) <;> cases hl <;> intro j e <;> cases e
  | retKeep i k w hp hw hj => exact (refs_frame h hr hw (fun _ e => (by cases e)) (fun _ e => (by cases e)) : RefsOk { u with w := w })
  | retSelf i k w hp hw hj hr' => exact (refs_frame h hr hw (fun _ e => (by cases e)) (fun _ e => (by cases e)) : RefsOk { u with w := w })
  | retEnd i k j w hp hw hj hr' hne => exact (refs_frame h hr hw (fun _ e => (by cases e)) (fun _ e => (by cases e)) : RefsOk { u with w := w })

/-- The invariant. -/
structure UInv (u : UState M) : Prop where
  body : UBody u
  refs : RefsOk u

theorem uinv_start : UInv (UState.start : UState M) := by
  refine ⟨⟨allInv_start, ?_, ?_, ?_, ?_, ?_, ?_, ?_, ?_⟩, ?_⟩
  · intro i h; rcases h with h | h <;> exact absurd rfl h
  · intro i h; exact absurd rfl h
  · intro i j h; cases h
  · intro i j h; cases h
  · intro i j p h; cases h
  · intro i k h; cases h
  · intro i k h; cases h
  · intro i k h; cases h
  · intro j; rfl

theorem uinv_step {u u' : UState M} {l : ULabel M} (h : UInv u) (hs : uStep u l = some u') : UInv u' := by
  obtain ⟨ho, ht⟩ := uTr_of_step hs
  exact ⟨body_step h.body ho ht, uRefs_step h.body h.refs ht⟩

theorem uinv_from {ls : List (ULabel M)} : ∀ {u u' : UState M}, UInv u → uRun u ls = some u' → UInv u' := by
  induction ls with
  | nil => intro u u' h hr; cases hr; exact h
  | cons l ls ih =>
    intro u u' h hr
    rw [uRun] at hr
    obtain ⟨v, hv, hr⟩ := Option.bind_eq_some_iff.1 hr
    exact ih (uinv_step h hv) hr

theorem uinv_run {ls : List (ULabel M)} {u : UState M} (h : uRun UState.start ls = some u) : UInv u := uinv_from uinv_start h

/-- A callback holds references only to sinks that exist and have an owner. -/
theorem held_owned {u : UState M} (h : UInv u) {i j : Nat} (hj : j ∈ u.held i) : j < u.w.n ∧ 0 < (u.w.sk j).refs ∧ owned u.w j = true := by
  have hi := (h.body.busy i (Or.inr (List.ne_nil_of_mem hj))).1
  have h1 := le_sumTo (f := fun i => (u.held i).count j) hi
  have h2 := List.count_pos_iff.2 hj
  have h3 := h.refs j
  have hp : 0 < (u.w.sk j).refs := by omega
  refine ⟨?_, hp, owned_iff.2 (Or.inl hp)⟩
  by_contra hlt
  rw [h.body.all.w.sinks.fresh j (by omega)] at hp
  simp [SinkSt.fresh] at hp

end G3.Props
