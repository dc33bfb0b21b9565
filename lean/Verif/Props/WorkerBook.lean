import Verif.Props.WorkerTr
import Mathlib.Data.List.Basic
import Mathlib.Data.List.Nodup
/-
Bookkeeping invariants of the worker model: queue, positions, calls, phases.
-/
namespace G3.Props
open G3

variable {M : Type}

/-- 1 while a task is in progress. -/
def pcBusy : WPc M → Nat
  | .idle => 0
  | .ended => 0
  | _ => 1

/-- Number of tasks taken from the queue. -/
def started (s : WState M) : Nat := s.completed + pcBusy s.wpc

/-- The sink a task attaches. -/
def addId : WTask M → Option Nat
  | .add i => some i
  | _ => none

/-- Tasks that end the service. -/
def isFinal : WTask M → Bool
  | .fatal _ => true
  | .done => true
  | _ => false

/-- The task of a synchronous call. -/
def kindTask : WKind → WTask M
  | .add i => .add i
  | .remove i => .remove i
  | .clear => .clear

/-- What the place of the worker thread says about the task in progress. -/
def pcTask : WPc M → Option (WTask M) → Prop
  | .idle, _ => True
  | .ended, _ => True
  | .sending (.msg m) _, t => t = some (.save m)
  | .sending (.fatal m) _, t => t = some (.fatal m)
  | .sending _ _, _ => False
  | .rmHeld i, t => t = some (.remove i)
  | .rmWait i, t => t = some (.remove i)
  | .clearing false, t => t = some .clear
  | .clrWait _ false, t => t = some .clear
  | .clearing true, t => ∃ m, t = some (.fatal m)
  | .clrWait _ true, t => ∃ m, t = some (.fatal m)
  | .dead, t => ∃ m, t = some (.fatal m)

/-- Queue and positions. -/
structure Book (s : WState M) : Prop where
  le : started s ≤ s.sub.length
  queue : s.phase.queueGone = false → s.wq = s.sub.drop (started s)
  gone : s.phase.queueGone = true → s.wq = [] ∧ s.wpc = .ended
  task : pcTask s.wpc s.sub[s.completed]?
  notFinal : s.wpc ≠ .ended → ∀ t ∈ s.sub.take s.completed, isFinal t = false
  ended : s.wpc = .ended → ∃ pre, s.sub.take s.completed = pre ++ [.done] ∧ ∀ t ∈ pre, isFinal t = false
  closed : s.phase.bgNull = true ↔ .done ∈ s.sub
  clearing : ∀ p, s.phase = .clearing p → s.sub[p]? = some .clear

theorem take_lemma {α} {l : List α} {n : Nat} {t : α} {r : List α} (h : l.drop n = t :: r) :
    l[n]? = some t ∧ l.take (n + 1) = l.take n ++ [t] ∧ r = l.drop (n + 1) ∧ n + 1 ≤ l.length := by
  have h1 : l[n]? = some t := by
    have := congrArg (·[0]?) h
    simpa using this
  refine ⟨h1, ?_, ?_, ?_⟩
  · rw [List.take_add_one, h1]; rfl
  · have : (l.drop n).drop 1 = r := by rw [h]; rfl
    rw [List.drop_drop] at this
    exact this.symm
  · have := List.length_drop (i := n) (l := l)
    rw [h] at this
    simp only [List.length_cons] at this
    omega

theorem book_start : Book (WState.start : WState M) :=
  ⟨Nat.le_refl _, fun _ => rfl, fun h => (by cases h), trivial, fun _ t ht => (by simp [WState.start] at ht), fun h => (by cases h),
    ⟨fun h => (by cases h), fun h => (by cases h)⟩, fun p h => (by cases h)⟩

theorem getElem?_append_some {α} {l m : List α} {p : Nat} {x : α} (h : l[p]? = some x) : (l ++ m)[p]? = some x := by
  have hp : p < l.length := by
    by_contra hn
    rw [List.getElem?_eq_none (by omega)] at h; cases h
  rw [List.getElem?_append_left hp]; exact h

/-- Pushing a task keeps the book in order, whatever else the step does to sinks and calls. -/
theorem book_push {s : WState M} (h : Book s) (hb : s.phase.bgNull = false) (t : WTask M) (ht : t ≠ .done)
    (n : Nat) (sk : Nat → SinkSt M) (calls : List WCall) (ph : DPhase) (hph : ph = s.phase ∨ ph = .clearing s.sub.length ∧ t = .clear) :
    Book { s with wq := s.wq ++ [t], sub := s.sub ++ [t], n := n, sk := sk, calls := calls, phase := ph } := by
  obtain ⟨h1, h2, h3, h4, h5, h6, h7, h8⟩ := h
  have hg : s.phase.queueGone = false := by
    cases hp : s.phase <;> rw [hp] at hb <;> first | rfl | cases hb
  have hph' : ph.bgNull = false := by
    rcases hph with rfl | ⟨rfl, _⟩
    · exact hb
    · rfl
  have hpq : ph.queueGone = false := by
    cases hp : ph <;> rw [hp] at hph' <;> first | rfl | cases hph'
  have hle : s.completed ≤ s.sub.length := by unfold started at h1; omega
  refine ⟨?_, ?_, ?_, ?_, ?_, ?_, ?_, ?_⟩
  · simp only [List.length_append]; unfold started at h1 ⊢; simp only; omega
  · intro _
    simp only [started] at h1 ⊢
    rw [h2 hg, List.drop_append_of_le_length h1]
    rfl
  · intro hx; simp only at hx; rw [hpq] at hx; cases hx
  · cases hw : s.wpc <;> rw [hw] at h4
    case idle => trivial
    case ended => trivial
    case sending x rest =>
      cases x <;> first
        | exact getElem?_append_some h4
        | exact h4.elim
    case rmHeld i => exact getElem?_append_some h4
    case rmWait i => exact getElem?_append_some h4
    case clearing f =>
      cases f
      · exact getElem?_append_some h4
      · obtain ⟨m, hm⟩ := h4; exact ⟨m, getElem?_append_some hm⟩
    case clrWait i f =>
      cases f
      · exact getElem?_append_some h4
      · obtain ⟨m, hm⟩ := h4; exact ⟨m, getElem?_append_some hm⟩
    case dead => obtain ⟨m, hm⟩ := h4; exact ⟨m, getElem?_append_some hm⟩
  · intro hw t' ht'
    simp only [List.take_append_of_le_length hle] at ht'
    exact h5 hw t' ht'
  · intro hw
    simp only [List.take_append_of_le_length hle]
    exact h6 hw
  · simp only [hph', List.mem_append, List.mem_singleton]
    constructor
    · intro hx; cases hx
    · rintro (hx | hx)
      · have := h7.2 hx; rw [hb] at this; cases this
      · exact absurd hx.symm ht
  · intro p hp
    simp only at hp ⊢
    rcases hph with rfl | ⟨rfl, rfl⟩
    · exact getElem?_append_some (h8 p hp)
    · cases hp; simp

/-- Taking a task. -/
theorem book_take {s : WState M} (h : Book s) (t : WTask M) (r : List (WTask M)) (hw : s.wpc = .idle) (hq : s.wq = t :: r)
    (att : List Nat) (err : List (ErrLine M)) :
    (∀ pc, pcBusy pc = 1 → pcTask pc (some t) → Book { s with wq := r, att := att, err := err, wpc := pc }) ∧
    (isFinal t = false → Book { s with wq := r, att := att, err := err, completed := s.completed + 1 }) ∧
    (t = .done → Book { s with wq := r, att := att, err := err, wpc := .ended, completed := s.completed + 1 }) := by
  obtain ⟨h1, h2, h3, h4, h5, h6, h7, h8⟩ := h
  have hg : s.phase.queueGone = false := by
    cases hp : s.phase.queueGone
    · rfl
    · have := (h3 hp).1; rw [hq] at this; cases this
  have hst : started s = s.completed := by unfold started; rw [hw]; rfl
  have hd := h2 hg
  rw [hst, hq] at hd
  obtain ⟨e1, e2, e3, e4⟩ := take_lemma hd.symm
  refine ⟨fun pc hpc hpt => ⟨?_, ?_, ?_, ?_, ?_, ?_, h7, h8⟩, fun hf => ⟨?_, ?_, ?_, ?_, ?_, ?_, h7, h8⟩,
    fun hdn => ⟨?_, ?_, ?_, ?_, ?_, ?_, h7, h8⟩⟩
  · simp only [started, hpc]; omega
  · intro _; simp only [started, hpc]; exact e3
  · intro hx; simp only at hx; rw [hg] at hx; cases hx
  · simp only; rw [e1]; exact hpt
  · intro _ t' ht'; exact h5 (by rw [hw]; intro hc; cases hc) t' ht'
  · intro hpe; simp only at hpe; rw [hpe] at hpc; cases hpc
  · simp only [started, hw, pcBusy]; omega
  · intro _; simp only [started, hw, pcBusy]; exact e3
  · intro hx; simp only at hx; rw [hg] at hx; cases hx
  · simp only [hw]; trivial
  · intro _ t' ht'
    simp only [e2, List.mem_append, List.mem_singleton] at ht'
    rcases ht' with ht' | rfl
    · exact h5 (by rw [hw]; intro hc; cases hc) t' ht'
    · exact hf
  · intro hpe; simp only at hpe; rw [hw] at hpe; cases hpe
  · simp only [started, pcBusy]; omega
  · intro _; simp only [started, pcBusy]; exact e3
  · intro hx; simp only at hx; rw [hg] at hx; cases hx
  · trivial
  · intro hx; exact absurd rfl hx
  · intro _
    exact ⟨s.sub.take s.completed, by simp only [e2, hdn], h5 (by rw [hw]; intro hc; cases hc)⟩

/-- Finishing the task in progress. -/
theorem book_finish {s : WState M} (h : Book s) (t : WTask M) (hb : pcBusy s.wpc = 1) (ht : s.sub[s.completed]? = some t)
    (hf : isFinal t = false) (sk : Nat → SinkSt M) : Book { s with sk := sk, wpc := .idle, completed := s.completed + 1 } := by
  obtain ⟨h1, h2, h3, h4, h5, h6, h7, h8⟩ := h
  have hst : started s = s.completed + 1 := by unfold started; rw [hb]
  have hne : s.wpc ≠ .ended := by intro he; rw [he] at hb; cases hb
  refine ⟨?_, ?_, ?_, trivial, ?_, ?_, h7, h8⟩
  · simp only [started, pcBusy]; omega
  · intro hg; simp only [started, pcBusy]; rw [h2 hg, hst]
  · intro hg; exact absurd (h3 hg).2 hne
  · intro _ t' ht'
    simp only [List.take_add_one, ht, Option.toList_some, List.mem_append, List.mem_singleton] at ht'
    rcases ht' with ht' | rfl
    · exact h5 hne t' ht'
    · exact hf
  · intro he; cases he

/-- Moving on within the task in progress. -/
theorem book_move {s : WState M} (h : Book s) (pc : WPc M) (hb : pcBusy s.wpc = 1) (hb' : pcBusy pc = 1)
    (ht : pcTask pc s.sub[s.completed]?) (sk : Nat → SinkSt M) (att : List Nat) : Book { s with att := att, sk := sk, wpc := pc } := by
  obtain ⟨h1, h2, h3, h4, h5, h6, h7, h8⟩ := h
  have hne : s.wpc ≠ .ended := by intro he; rw [he] at hb; cases hb
  refine ⟨?_, ?_, ?_, ht, ?_, ?_, h7, h8⟩
  · simp only [started, hb'] ; unfold started at h1; rw [hb] at h1; exact h1
  · intro hg; simp only [started, hb']; have := h2 hg; unfold started at this; rw [hb] at this; exact this
  · intro hg; exact absurd (h3 hg).2 hne
  · intro _; exact h5 hne
  · intro he; simp only at he; rw [he] at hb'; cases hb'

/-- A step that touches none of the fields the book is about. -/
theorem book_frame {s s' : WState M} (h : Book s) (h1 : s'.wq = s.wq) (h2 : s'.sub = s.sub) (h3 : s'.completed = s.completed)
    (h4 : s'.wpc = s.wpc) (h5 : s'.phase = s.phase) : Book s' := by
  obtain ⟨a, b, c, d, e, f, g, i⟩ := h
  refine ⟨?_, ?_, ?_, ?_, ?_, ?_, ?_, ?_⟩
  · unfold started at a ⊢; rw [h2, h3, h4]; exact a
  · unfold started at b ⊢; rw [h1, h2, h3, h4, h5]; exact b
  · rw [h1, h4, h5]; exact c
  · rw [h2, h3, h4]; exact d
  · rw [h2, h3, h4]; exact e
  · rw [h2, h3, h4]; exact f
  · rw [h2, h5]; exact g
  · rw [h2, h5]; exact i

theorem book_tr {s s' : WState M} (ht : Tr s s') (h : Book s) : Book s' := by
  cases ht with
  | ub => exact book_frame h rfl rfl rfl rfl rfl
  | save m hb => exact book_push h hb _ (by simp) _ _ _ _ (Or.inl rfl)
  | fatal m hb => exact book_push h hb _ (by simp) _ _ _ _ (Or.inl rfl)
  | addQ hb => exact book_push h hb _ (by simp) _ _ _ _ (Or.inl rfl)
  | addN => exact book_frame h rfl rfl rfl rfl rfl
  | rmQ i hi hb => exact book_push h hb _ (by simp) _ _ _ _ (Or.inl rfl)
  | rmN => exact book_frame h rfl rfl rfl rfl rfl
  | clrQ hb => exact book_push h hb _ (by simp) _ _ _ _ (Or.inl rfl)
  | clrN => exact book_frame h rfl rfl rfl rfl rfl
  | retAddKeep => exact book_frame h rfl rfl rfl rfl rfl
  | retAddDrop => exact book_frame h rfl rfl rfl rfl rfl
  | retOther => exact book_frame h rfl rfl rfl rfl rfl
  | hold => exact book_frame h rfl rfl rfl rfl rfl
  | holdFail => exact book_frame h rfl rfl rfl rfl rfl
  | call => exact book_frame h rfl rfl rfl rfl rfl
  | relKeep => exact book_frame h rfl rfl rfl rfl rfl
  | relDrop => exact book_frame h rfl rfl rfl rfl rfl
  | reap => exact book_frame h rfl rfl rfl rfl rfl
  | dStart hp => exact book_push h (by rw [hp]; rfl) _ (by simp) _ _ _ _ (Or.inr ⟨rfl, rfl⟩)
  | dStop p hp hc =>
    obtain ⟨h1, h2, h3, h4, h5, h6, h7, h8⟩ := h
    have hg : s.phase.queueGone = false := by rw [hp]; rfl
    have hle : s.completed ≤ s.sub.length := by unfold started at h1; omega
    have hcl : p < s.sub.length := by
      by_contra hn
      have := h8 p hp
      rw [List.getElem?_eq_none (by omega)] at this; cases this
    refine ⟨?_, ?_, fun hx => (by cases hx), ?_, ?_, ?_, ⟨fun _ => ?_, fun _ => rfl⟩, fun p hp => (by cases hp)⟩
    · simp only [List.length_append]; unfold started at h1 ⊢; simp only; omega
    · intro _
      simp only [started] at h1 ⊢
      rw [h2 hg, List.drop_append_of_le_length h1]
      rfl
    · cases hw : s.wpc <;> rw [hw] at h4
      case idle => trivial
      case ended => trivial
      case sending x rest =>
        cases x <;> first
          | exact getElem?_append_some h4
          | exact h4.elim
      case rmHeld i => exact getElem?_append_some h4
      case rmWait i => exact getElem?_append_some h4
      case clearing f =>
        cases f
        · exact getElem?_append_some h4
        · obtain ⟨m, hm⟩ := h4; exact ⟨m, getElem?_append_some hm⟩
      case clrWait i f =>
        cases f
        · exact getElem?_append_some h4
        · obtain ⟨m, hm⟩ := h4; exact ⟨m, getElem?_append_some hm⟩
      case dead => obtain ⟨m, hm⟩ := h4; exact ⟨m, getElem?_append_some hm⟩
    · intro hw t' ht'
      simp only [List.take_append_of_le_length hle] at ht'
      exact h5 hw t' ht'
    · intro hw
      simp only [List.take_append_of_le_length hle]
      exact h6 hw
    · simp
  | dJoin hp hw =>
    obtain ⟨h1, h2, h3, h4, h5, h6, h7, h8⟩ := h
    exact ⟨h1, fun hx => (by cases hx), fun _ => ⟨rfl, hw⟩, h4, h5, h6, ⟨fun _ => h7.1 (by rw [hp]; rfl), fun _ => rfl⟩, fun p hp => (by cases hp)⟩
  | dRet hp ha =>
    obtain ⟨h1, h2, h3, h4, h5, h6, h7, h8⟩ := h
    exact ⟨h1, fun hx => (by cases hx), fun _ => h3 (by rw [hp]; rfl), h4, h5, h6, ⟨fun _ => h7.1 (by rw [hp]; rfl), fun _ => rfl⟩, fun p hp => (by cases hp)⟩
  | dKeep => exact book_frame h rfl rfl rfl rfl rfl
  | dDrop i r hp ha ho =>
    obtain ⟨h1, h2, h3, h4, h5, h6, h7, h8⟩ := h
    exact ⟨h1, fun hx => (by cases hx), fun _ => h3 (by rw [hp]; rfl), h4, h5, h6, ⟨fun _ => h7.1 (by rw [hp]; rfl), fun _ => rfl⟩, fun p hp => (by cases hp)⟩
  | dReap i hp he =>
    obtain ⟨h1, h2, h3, h4, h5, h6, h7, h8⟩ := h
    exact ⟨h1, fun hx => (by cases hx), fun _ => h3 (by rw [hp]; rfl), h4, h5, h6, ⟨fun _ => h7.1 (by rw [hp]; rfl), fun _ => rfl⟩, fun p hp => (by cases hp)⟩
  | tSaveNone m r hw hq ha => exact (book_take h _ r hw hq _ _).2.1 rfl
  | tSave m r hw hq ha => exact (book_take h _ r hw hq _ _).1 _ rfl rfl
  | tFatal m r hw hq => exact (book_take h _ r hw hq _ _).1 _ rfl rfl
  | tAdd i r hw hq => exact (book_take h _ r hw hq _ _).2.1 rfl
  | tRmYes i r hw hq ho => exact (book_take h _ r hw hq _ _).1 _ rfl rfl
  | tRmNo i r hw hq ho => exact (book_take h _ r hw hq _ _).2.1 rfl
  | tClear r hw hq => exact (book_take h _ r hw hq _ _).1 _ rfl rfl
  | tDone r hw hq => exact (book_take h _ r hw hq _ _).2.2 rfl
  | send x i rest hw =>
    have hb : pcBusy s.wpc = 1 := by rw [hw]; rfl
    refine book_move h _ hb rfl ?_ _ _
    have := h.task
    rw [hw] at this
    cases x <;> exact this
  | sendEndF m hw =>
    refine book_move h _ (by rw [hw]; rfl) rfl ?_ _ _
    have := h.task
    rw [hw] at this
    exact ⟨m, this⟩
  | sendEnd x hw hx =>
    have := h.task
    rw [hw] at this
    cases x with
    | msg m => exact book_finish h (.save m) (by rw [hw]; rfl) this rfl _
    | fatal m => exact absurd rfl (hx m)
    | call c => exact this.elim
    | stop => exact this.elim
  | rmKeep i hw ho =>
    have := h.task
    rw [hw] at this
    exact book_finish h (.remove i) (by rw [hw]; rfl) this rfl _
  | rmDrop i hw ho =>
    have := h.task
    rw [hw] at this
    exact book_move h (.rmWait i) (by rw [hw]; rfl) rfl this _ _
  | rmReap i hw he =>
    have := h.task
    rw [hw] at this
    exact book_finish h (.remove i) (by rw [hw]; rfl) this rfl _
  | clrEndF hw ha =>
    have := h.task
    rw [hw] at this
    exact book_move h .dead (by rw [hw]; rfl) rfl this _ _
  | clrEnd hw ha =>
    have := h.task
    rw [hw] at this
    exact book_finish h .clear (by rw [hw]; rfl) this rfl _
  | clrKeep => exact book_frame h rfl rfl rfl rfl rfl
  | clrDrop f i r hw ha ho =>
    have := h.task
    rw [hw] at this
    exact book_move h _ (by rw [hw]; rfl) rfl (by cases f <;> exact this) _ _
  | clrReap i f hw he =>
    have := h.task
    rw [hw] at this
    exact book_move h _ (by rw [hw]; rfl) rfl (by cases f <;> exact this) _ _
  | sPop => exact book_frame h rfl rfl rfl rfl rfl
  | sFinStop => exact book_frame h rfl rfl rfl rfl rfl
  | sFin => exact book_frame h rfl rfl rfl rfl rfl
  | sFatal i x m hi hbl hr hx hb => exact book_push h hb _ (by simp) _ _ _ _ (Or.inl rfl)

end G3.Props
