import Verif.Model.FatalThreads
import Verif.Spec.FatalThreads
import Mathlib.Data.List.Nodup
import Mathlib.Tactic.ByContra
/-
C74: several threads raise fatal events at the same time.
-/
namespace G3.Props
open G3 G3.Spec

/-- The copy of the hook that a thread holds: that of the user or not. -/
def FtPc.flag : FtPc → Option Bool
  | .copied u => some u
  | .locked u => some u
  | .writing u => some u
  | .written u => some u
  | .unlocked u => some u
  | .counted u => some u
  | .traced u => some u
  | _ => none

/-- The thread is inside setFatalPreLoggingHook and owns its mutex. -/
def FtPc.inLock : FtPc → Bool
  | .locked _ => true
  | .writing _ => true
  | .written _ => true
  | _ => false

/-- The thread has reset the hook. -/
def FtPc.reset : FtPc → Bool
  | .written _ => true
  | .unlocked _ => true
  | .counted _ => true
  | .traced _ => true
  | .hooked => true
  | .done => true
  | _ => false

/-- The thread has counted itself. -/
def FtPc.isCounted : FtPc → Bool
  | .counted _ => true
  | .traced _ => true
  | .hooked => true
  | .done => true
  | _ => false

/-- The thread has passed the initialisation of the first stack trace. -/
def FtPc.isTraced : FtPc → Bool
  | .traced _ => true
  | .hooked => true
  | .done => true
  | _ => false

/-- The event of the thread is over or has not begun. -/
def FtPc.atRest : FtPc → Bool
  | .idle => true
  | .done => true
  | _ => false

open FtPc in
structure FtInv (text trace : Nat → Str) (s : FtState) : Prop where
  mono : ∀ t, flag (s.pc t) = some false → s.hook = false
  own : ∀ t, inLock (s.pc t) = true ↔ s.owner = some t
  left : s.hook = false → ∃ t, t ∈ s.runs ∨ flag (s.pc t) = some true
  off : ∀ t, reset (s.pc t) = true → s.hook = false
  nodup : s.runs.Nodup
  ran : ∀ t ∈ s.runs, s.pc t = .hooked ∨ s.pc t = .done
  cnt : ∀ l : List Nat, l.Nodup → (∀ t ∈ l, isCounted (s.pc t) = true) → l.length ≤ s.counter
  fst : ∀ x, s.first = some x → ∃ r, x = trace r ∧ isTraced (s.pc r) = true
  has : ∀ t, isTraced (s.pc t) = true → s.first ≠ none
  once : (s.out.map (·.1)).Nodup
  sent : ∀ t, t ∈ s.out.map (·.1) ↔ s.pc t = .done
  shape : ∀ p ∈ s.out, p.2 = plainReport text trace p.1 ∨
    ∃ r, s.first = some (trace r) ∧ isTraced (s.pc r) = true ∧ p.2 = warnedReport text trace p.1 r
  clean : ∀ p ∈ s.out, ∀ q ∈ s.out, p.2 = plainReport text trace p.1 → q.2 = plainReport text trace q.1 → p.1 = q.1

theorem warned_ne_plain (text trace : Nat → Str) (t r : Nat) : warnedReport text trace t r ≠ plainReport text trace t := by
  intro h
  have := congrArg List.length h
  unfold warnedReport plainReport at this
  simp only [List.length_append] at this
  have h1 : "\n---End of first stacktrace\n".toList.length = 28 := by decide
  omega

theorem warned_eq (text trace : Nat → Str) (t r : Nat) :
    warnedReport text trace t r = text t ++ trace t ++ recursiveText ((some (trace r)).getD []) := by
  unfold warnedReport recursiveText
  simp

theorem ftInv_start (text trace : Nat → Str) : FtInv text trace FtState.start := by
  constructor <;> simp [FtState.start, FtPc.flag, FtPc.inLock, FtPc.reset, FtPc.isCounted, FtPc.isTraced]
  intro l _ h
  cases l with
  | nil => rfl
  | cons a l => exact absurd List.mem_cons_self (h a)

theorem ftInv_ub {text trace : Nat → Str} {s : FtState} (h : FtInv text trace s) : FtInv text trace { s with ub := true } :=
  ⟨h.mono, h.own, h.left, h.off, h.nodup, h.ran, h.cnt, h.fst, h.has, h.once, h.sent, h.shape, h.clean⟩

/-- A step that changes only where thread t is, and things the invariant does not mention. -/
theorem ftInv_go {text trace : Nat → Str} {s s' : FtState} {t : Nat} {p : FtPc} (h : FtInv text trace s)
    (hpc : s'.pc = fun i => if i = t then p else s.pc i) (hh : s'.hook = s.hook) (hr : s'.runs = s.runs) (hc : s'.counter = s.counter)
    (hf : s'.first = s.first) (ho : s'.out = s.out)
    (h1 : FtPc.flag p = some false → s.hook = false) (h2 : FtPc.flag (s.pc t) = some true → FtPc.flag p = some true)
    (h3 : FtPc.reset p = true → FtPc.reset (s.pc t) = true)
    (h4 : FtPc.isCounted p = FtPc.isCounted (s.pc t)) (h5 : FtPc.isTraced p = FtPc.isTraced (s.pc t))
    (h6 : s.pc t ≠ .hooked) (h7 : s.pc t ≠ .done) (h8 : p ≠ .done)
    (hown : ∀ i, FtPc.inLock (s'.pc i) = true ↔ s'.owner = some i) : FtInv text trace s' := by
  have hp : ∀ i, s'.pc i = if i = t then p else s.pc i := fun i => by rw [hpc]
  have hct : ∀ i, FtPc.isCounted (s'.pc i) = FtPc.isCounted (s.pc i) := by
    intro i; rw [hp]; split
    · rename_i e; rw [e]; exact h4
    · rfl
  have htr : ∀ i, FtPc.isTraced (s'.pc i) = FtPc.isTraced (s.pc i) := by
    intro i; rw [hp]; split
    · rename_i e; rw [e]; exact h5
    · rfl
  refine ⟨?_, hown, ?_, ?_, by rw [hr]; exact h.nodup, ?_, ?_, ?_, ?_, by rw [ho]; exact h.once, ?_, ?_, by rw [ho]; exact h.clean⟩
  · intro i hi
    rw [hp] at hi
    rw [hh]
    split at hi
    · exact h1 hi
    · exact h.mono i hi
  · intro e
    rw [hh] at e
    obtain ⟨i, hi⟩ := h.left e
    refine ⟨i, hi.imp (fun x => by rw [hr]; exact x) (fun x => ?_)⟩
    rw [hp]; split
    · rename_i e; rw [e] at x; exact h2 x
    · exact x
  · intro i hi
    rw [hp] at hi
    rw [hh]
    split at hi
    · exact h.off t (h3 hi)
    · exact h.off i hi
  · intro i hi
    rw [hr] at hi
    rw [hp]; split
    · rename_i e; rw [e] at hi; rcases h.ran t hi with x | x
      · exact absurd x h6
      · exact absurd x h7
    · exact h.ran i hi
  · intro l hl ha
    rw [hc]
    exact h.cnt l hl (fun i hi => by rw [← hct i]; exact ha i hi)
  · intro x hx
    rw [hf] at hx
    obtain ⟨r, e, hr⟩ := h.fst x hx
    exact ⟨r, e, by rw [htr]; exact hr⟩
  · intro i hi
    rw [htr] at hi
    rw [hf]; exact h.has i hi
  · intro i
    rw [ho, h.sent, hp]
    split
    · rename_i e; rw [e]; exact ⟨fun x => absurd x h7, fun x => absurd x h8⟩
    · exact Iff.rfl
  · intro q hq
    rw [ho] at hq
    rcases h.shape q hq with e | ⟨r, a, b, c⟩
    · exact Or.inl e
    · exact Or.inr ⟨r, by rw [hf]; exact a, by rw [htr]; exact b, c⟩

theorem ftInv_step {text trace : Nat → Str} {s s' : FtState} {t : Nat} (h : FtInv text trace s) (hs : ftStep text trace s t = some s') :
    FtInv text trace s' := by
  unfold ftStep at hs
  split at hs
  · cases hs
  · split at hs
    · -- idle
      rename_i hpc
      split at hs
      · cases hs; exact ftInv_ub h
      · cases hs
        refine ftInv_go (t := t) (p := .copying) h rfl rfl rfl rfl rfl rfl (by simp [FtPc.flag]) (by simp [hpc, FtPc.flag]) (by simp [FtPc.reset])
          (by rw [hpc]; rfl) (by rw [hpc]; rfl) (by rw [hpc]; simp) (by rw [hpc]; simp) (by simp) ?_
        intro i
        rw [show ∀ b : FtState, b.owner = s.owner → (b.owner = some i ↔ s.owner = some i) from fun b e => by rw [e], ← h.own i]
        · show FtPc.inLock (if i = t then _ else s.pc i) = true ↔ _
          split
          · rename_i e; rw [e, hpc]; rfl
          · exact Iff.rfl
        · rfl
    · -- copying
      rename_i hpc
      cases hs
      refine ftInv_go (t := t) (p := .copied s.hook) h rfl rfl rfl rfl rfl rfl (by simp [FtPc.flag]) (by simp [hpc, FtPc.flag]) (by simp [FtPc.reset])
        (by rw [hpc]; rfl) (by rw [hpc]; rfl) (by rw [hpc]; simp) (by rw [hpc]; simp) (by simp) ?_
      intro i
      rw [show ∀ b : FtState, b.owner = s.owner → (b.owner = some i ↔ s.owner = some i) from fun b e => by rw [e], ← h.own i]
      · show FtPc.inLock (if i = t then _ else s.pc i) = true ↔ _
        split
        · rename_i e; rw [e, hpc]; rfl
        · exact Iff.rfl
      · rfl
    · -- copied
      rename_i u hpc
      split at hs
      · rename_i hown
        cases hs
        refine ftInv_go (t := t) (p := .locked u) h rfl rfl rfl rfl rfl rfl ?_ (by simp [hpc, FtPc.flag]) (by simp [FtPc.reset])
          (by rw [hpc]; rfl) (by rw [hpc]; rfl) (by rw [hpc]; simp) (by rw [hpc]; simp) (by simp) ?_
        · intro e; exact h.mono t (by rw [hpc]; exact e)
        · intro i
          show FtPc.inLock (if i = t then _ else s.pc i) = true ↔ some t = some i
          split
          · rename_i e; rw [e]; exact ⟨fun _ => rfl, fun _ => rfl⟩
          · rename_i e
            rw [h.own i, hown]
            constructor
            · intro x; cases x
            · intro x; cases x; exact absurd rfl e
      · cases hs
    · -- locked
      rename_i u hpc
      split at hs
      · cases hs; exact ftInv_ub h
      · cases hs
        refine ftInv_go (t := t) (p := .writing u) h rfl rfl rfl rfl rfl rfl ?_ (by simp [hpc, FtPc.flag]) (by simp [FtPc.reset])
          (by rw [hpc]; rfl) (by rw [hpc]; rfl) (by rw [hpc]; simp) (by rw [hpc]; simp) (by simp) ?_
        · intro e; exact h.mono t (by rw [hpc]; exact e)
        · intro i
          show FtPc.inLock (if i = t then _ else s.pc i) = true ↔ s.owner = some i
          rw [← h.own i]
          split
          · rename_i e; rw [e, hpc]; rfl
          · exact Iff.rfl
    · -- writing
      rename_i u hpc
      cases hs
      have hp : ∀ i, ({ s.go t (.written u) with writing := false, hook := false } : FtState).pc i = if i = t then .written u else s.pc i := fun _ => rfl
      refine ⟨fun _ _ => rfl, ?_, ?_, fun _ _ => rfl, h.nodup, ?_, ?_, ?_, ?_, h.once, ?_, ?_, h.clean⟩
      · intro i
        show FtPc.inLock (if i = t then _ else s.pc i) = true ↔ s.owner = some i
        rw [← h.own i]
        split
        · rename_i e; rw [e, hpc]; rfl
        · exact Iff.rfl
      · intro _
        cases u with
        | true => exact ⟨t, Or.inr (by rw [hp, if_pos rfl]; rfl)⟩
        | false =>
          obtain ⟨i, hi⟩ := h.left (h.mono t (by rw [hpc]; rfl))
          refine ⟨i, hi.imp id fun x => ?_⟩
          rw [hp]; split
          · rename_i e; rw [e, hpc] at x; exact x
          · exact x
      · intro i hi
        rw [hp]; split
        · rename_i e; rw [e] at hi; rcases h.ran t hi with x | x <;> (rw [hpc] at x; cases x)
        · exact h.ran i hi
      · intro l hl ha
        refine h.cnt l hl (fun i hi => ?_)
        have := ha i hi
        rw [hp] at this
        split at this
        · cases this
        · exact this
      · intro x hx
        obtain ⟨r, e, hr⟩ := h.fst x hx
        refine ⟨r, e, ?_⟩
        rw [hp]; split
        · rename_i e; rw [e, hpc] at hr; cases hr
        · exact hr
      · intro i hi
        rw [hp] at hi
        split at hi
        · cases hi
        · exact h.has i hi
      · intro i
        show i ∈ s.out.map (·.1) ↔ _
        rw [hp, h.sent]
        split
        · rename_i e; rw [e, hpc]; exact ⟨fun x => (by cases x), fun x => (by cases x)⟩
        · exact Iff.rfl
      · intro q hq
        rcases h.shape q hq with e | ⟨r, a, b, c⟩
        · exact Or.inl e
        · refine Or.inr ⟨r, a, ?_, c⟩
          rw [hp]; split
          · rename_i e; rw [e, hpc] at b; cases b
          · exact b
    · -- written
      rename_i u hpc
      cases hs
      refine ftInv_go (t := t) (p := .unlocked u) h rfl rfl rfl rfl rfl rfl ?_ (by simp [hpc, FtPc.flag]) (by simp [hpc, FtPc.reset])
        (by rw [hpc]; rfl) (by rw [hpc]; rfl) (by rw [hpc]; simp) (by rw [hpc]; simp) (by simp) ?_
      · intro e; exact h.mono t (by rw [hpc]; exact e)
      · intro i
        show FtPc.inLock (if i = t then _ else s.pc i) = true ↔ none = some i
        have ht : s.owner = some t := (h.own t).1 (by rw [hpc]; rfl)
        split
        · constructor <;> intro x <;> cases x
        · rename_i e
          rw [h.own i, ht]
          constructor
          · intro x; cases x; exact absurd rfl e
          · intro x; cases x
    · -- unlocked
      rename_i u hpc
      cases hs
      have hp : ∀ i, ({ s.go t (.counted u) with counter := s.counter + 1 } : FtState).pc i = if i = t then .counted u else s.pc i := fun _ => rfl
      refine ⟨?_, ?_, ?_, ?_, h.nodup, ?_, ?_, ?_, ?_, h.once, ?_, ?_, h.clean⟩
      · intro i hi
        rw [hp] at hi
        split at hi
        · exact h.mono t (by rw [hpc]; exact hi)
        · exact h.mono i hi
      · intro i
        show FtPc.inLock (if i = t then _ else s.pc i) = true ↔ s.owner = some i
        rw [← h.own i]
        split
        · rename_i e; rw [e, hpc]; rfl
        · exact Iff.rfl
      · intro e
        obtain ⟨i, hi⟩ := h.left e
        refine ⟨i, hi.imp id fun x => ?_⟩
        rw [hp]; split
        · rename_i e; rw [e, hpc] at x; exact x
        · exact x
      · intro i hi
        rw [hp] at hi
        split at hi
        · exact h.off t (by rw [hpc]; rfl)
        · exact h.off i hi
      · intro i hi
        rw [hp]; split
        · rename_i e; rw [e] at hi; rcases h.ran t hi with x | x <;> (rw [hpc] at x; cases x)
        · exact h.ran i hi
      · intro l hl ha
        show l.length ≤ s.counter + 1
        have hl' : (l.erase t).length ≤ s.counter := by
          refine h.cnt _ (hl.erase t) (fun i hi => ?_)
          have hm := (List.Nodup.mem_erase_iff hl).1 hi
          have := ha i hm.2
          rw [hp, if_neg hm.1] at this
          exact this
        have := List.length_erase_le (a := t) (l := l)
        by_cases hm : t ∈ l
        · rw [List.length_erase_of_mem hm] at hl'; omega
        · rw [List.erase_of_not_mem hm] at hl'; omega
      · intro x hx
        obtain ⟨r, e, hr⟩ := h.fst x hx
        refine ⟨r, e, ?_⟩
        rw [hp]; split
        · rename_i e; rw [e, hpc] at hr; cases hr
        · exact hr
      · intro i hi
        rw [hp] at hi
        split at hi
        · cases hi
        · exact h.has i hi
      · intro i
        show i ∈ s.out.map (·.1) ↔ _
        rw [hp, h.sent]
        split
        · rename_i e; rw [e, hpc]; exact ⟨fun x => (by cases x), fun x => (by cases x)⟩
        · exact Iff.rfl
      · intro q hq
        rcases h.shape q hq with e | ⟨r, a, b, c⟩
        · exact Or.inl e
        · refine Or.inr ⟨r, a, ?_, c⟩
          rw [hp]; split
          · rename_i e; rw [e, hpc] at b; cases b
          · exact b
    · -- counted
      rename_i u hpc
      cases hs
      have hp : ∀ i, ({ s.go t (.traced u) with first := some (s.first.getD (trace t)) } : FtState).pc i = if i = t then .traced u else s.pc i :=
        fun _ => rfl
      refine ⟨?_, ?_, ?_, ?_, h.nodup, ?_, ?_, ?_, ?_, h.once, ?_, ?_, h.clean⟩
      · intro i hi
        rw [hp] at hi
        split at hi
        · exact h.mono t (by rw [hpc]; exact hi)
        · exact h.mono i hi
      · intro i
        show FtPc.inLock (if i = t then _ else s.pc i) = true ↔ s.owner = some i
        rw [← h.own i]
        split
        · rename_i e; rw [e, hpc]; rfl
        · exact Iff.rfl
      · intro e
        obtain ⟨i, hi⟩ := h.left e
        refine ⟨i, hi.imp id fun x => ?_⟩
        rw [hp]; split
        · rename_i e; rw [e, hpc] at x; exact x
        · exact x
      · intro i hi
        rw [hp] at hi
        split at hi
        · exact h.off t (by rw [hpc]; rfl)
        · exact h.off i hi
      · intro i hi
        rw [hp]; split
        · rename_i e; rw [e] at hi; rcases h.ran t hi with x | x <;> (rw [hpc] at x; cases x)
        · exact h.ran i hi
      · intro l hl ha
        refine h.cnt l hl (fun i hi => ?_)
        have := ha i hi
        rw [hp] at this
        split at this
        · rename_i e; rw [e, hpc]; rfl
        · exact this
      · intro x hx
        cases hf : s.first with
        | none =>
          rw [hf] at hx
          cases hx
          exact ⟨t, rfl, by rw [hp, if_pos rfl]; rfl⟩
        | some y =>
          rw [hf] at hx
          cases hx
          obtain ⟨r, e, hr⟩ := h.fst y hf
          refine ⟨r, e, ?_⟩
          rw [hp]; split
          · rfl
          · exact hr
      · intro i _ e; cases e
      · intro i
        show i ∈ s.out.map (·.1) ↔ _
        rw [hp, h.sent]
        split
        · rename_i e; rw [e, hpc]; exact ⟨fun x => (by cases x), fun x => (by cases x)⟩
        · exact Iff.rfl
      · intro q hq
        rcases h.shape q hq with e | ⟨r, a, b, c⟩
        · exact Or.inl e
        · refine Or.inr ⟨r, ?_, ?_, c⟩
          · show some (s.first.getD (trace t)) = _
            rw [a]; rfl
          · rw [hp]; split
            · rfl
            · exact b
    · -- traced
      rename_i u hpc
      cases hs
      have hp : ∀ i, ({ s.go t .hooked with runs := if u then s.runs ++ [t] else s.runs } : FtState).pc i = if i = t then .hooked else s.pc i :=
        fun _ => rfl
      have htn : t ∉ s.runs := by
        intro hm
        rcases h.ran t hm with x | x <;> (rw [hpc] at x; cases x)
      refine ⟨?_, ?_, ?_, ?_, ?_, ?_, ?_, ?_, ?_, h.once, ?_, ?_, h.clean⟩
      · intro i hi
        rw [hp] at hi
        split at hi
        · cases hi
        · exact h.mono i hi
      · intro i
        show FtPc.inLock (if i = t then _ else s.pc i) = true ↔ s.owner = some i
        rw [← h.own i]
        split
        · rename_i e; rw [e, hpc]; rfl
        · exact Iff.rfl
      · intro e
        obtain ⟨i, hi⟩ := h.left e
        show ∃ i, i ∈ (if u then s.runs ++ [t] else s.runs) ∨ _
        cases u with
        | true => exact ⟨t, Or.inl (by simp)⟩
        | false =>
          refine ⟨i, hi.imp id fun x => ?_⟩
          rw [hp]; split
          · rename_i e; rw [e, hpc] at x; cases x
          · exact x
      · intro i hi
        rw [hp] at hi
        split at hi
        · exact h.off t (by rw [hpc]; rfl)
        · exact h.off i hi
      · show (if u then s.runs ++ [t] else s.runs).Nodup
        split
        · rw [List.nodup_append]
          refine ⟨h.nodup, by simp, ?_⟩
          intro a ha b hb e
          rw [List.mem_singleton] at hb
          exact htn (hb ▸ e ▸ ha)
        · exact h.nodup
      · intro i hi
        rw [hp]
        by_cases e : i = t
        · rw [if_pos e]; exact Or.inl rfl
        · rw [if_neg e]
          refine h.ran i ?_
          have hi : i ∈ (if u then s.runs ++ [t] else s.runs) := hi
          split at hi
          · rcases List.mem_append.1 hi with x | x
            · exact x
            · exact absurd (List.mem_singleton.1 x) e
          · exact hi
      · intro l hl ha
        refine h.cnt l hl (fun i hi => ?_)
        have := ha i hi
        rw [hp] at this
        split at this
        · rename_i e; rw [e, hpc]; rfl
        · exact this
      · intro x hx
        obtain ⟨r, e, hr⟩ := h.fst x hx
        refine ⟨r, e, ?_⟩
        rw [hp]; split
        · rfl
        · exact hr
      · intro i hi
        rw [hp] at hi
        split at hi
        · exact h.has t (by rw [hpc]; rfl)
        · exact h.has i hi
      · intro i
        show i ∈ s.out.map (·.1) ↔ _
        rw [hp, h.sent]
        split
        · rename_i e; rw [e, hpc]; exact ⟨fun x => (by cases x), fun x => (by cases x)⟩
        · exact Iff.rfl
      · intro q hq
        rcases h.shape q hq with e | ⟨r, a, b, c⟩
        · exact Or.inl e
        · refine Or.inr ⟨r, a, ?_, c⟩
          rw [hp]; split
          · rfl
          · exact b
    · -- hooked
      rename_i hpc
      cases hs
      generalize hx : text t ++ trace t ++ (if 1 < s.counter then recursiveText (s.first.getD []) else []) = x
      have hp : ∀ i, ({ s.go t .done with out := s.out ++ [(t, x)] } : FtState).pc i = if i = t then .done else s.pc i := fun _ => rfl
      have htn : t ∉ s.out.map (·.1) := by
        intro hm
        have := (h.sent t).1 hm
        rw [hpc] at this; cases this
      obtain ⟨r, hr1, hr2⟩ : ∃ r, s.first = some (trace r) ∧ FtPc.isTraced (s.pc r) = true := by
        cases hf : s.first with
        | none => exact absurd hf (h.has t (by rw [hpc]; rfl))
        | some y => obtain ⟨r, e, hr⟩ := h.fst y hf; exact ⟨r, by rw [e], hr⟩
      have hxs : (x = plainReport text trace t ∧ s.counter ≤ 1) ∨ x = warnedReport text trace t r := by
        by_cases hc : 1 < s.counter
        · right
          rw [if_pos hc] at hx
          rw [← hx, hr1]
          exact (warned_eq text trace t r).symm
        · left
          rw [if_neg hc, List.append_nil] at hx
          exact ⟨hx.symm, by omega⟩
      have hold : ∀ q ∈ s.out, s.pc q.1 = .done := fun q hq => (h.sent q.1).1 (List.mem_map_of_mem hq)
      refine ⟨?_, ?_, ?_, ?_, h.nodup, ?_, ?_, ?_, ?_, ?_, ?_, ?_, ?_⟩
      · intro i hi
        rw [hp] at hi
        split at hi
        · cases hi
        · exact h.mono i hi
      · intro i
        show FtPc.inLock (if i = t then _ else s.pc i) = true ↔ s.owner = some i
        rw [← h.own i]
        split
        · rename_i e; rw [e, hpc]; rfl
        · exact Iff.rfl
      · intro e
        obtain ⟨i, hi⟩ := h.left e
        refine ⟨i, hi.imp id fun x => ?_⟩
        rw [hp]; split
        · rename_i e; rw [e, hpc] at x; cases x
        · exact x
      · intro i hi
        rw [hp] at hi
        split at hi
        · exact h.off t (by rw [hpc]; rfl)
        · exact h.off i hi
      · intro i hi
        rw [hp]; split
        · exact Or.inr rfl
        · exact h.ran i hi
      · intro l hl ha
        refine h.cnt l hl (fun i hi => ?_)
        have := ha i hi
        rw [hp] at this
        split at this
        · rename_i e; rw [e, hpc]; rfl
        · exact this
      · intro y hy
        obtain ⟨r, e, hr⟩ := h.fst y hy
        refine ⟨r, e, ?_⟩
        rw [hp]; split
        · rfl
        · exact hr
      · intro i hi
        rw [hp] at hi
        split at hi
        · exact h.has t (by rw [hpc]; rfl)
        · exact h.has i hi
      · show ((s.out ++ [(t, x)]).map (·.1)).Nodup
        rw [List.map_append, List.nodup_append]
        refine ⟨h.once, by simp, ?_⟩
        intro a ha b hb e
        simp only [List.map_cons, List.map_nil, List.mem_singleton] at hb
        exact htn (hb ▸ e ▸ ha)
      · intro i
        show i ∈ (s.out ++ [(t, x)]).map (·.1) ↔ _
        rw [hp, List.map_append, List.mem_append, h.sent]
        simp only [List.map_cons, List.map_nil, List.mem_singleton]
        split
        · rename_i e; exact ⟨fun _ => rfl, fun _ => Or.inr e⟩
        · rename_i e; exact ⟨fun y => y.resolve_right e, Or.inl⟩
      · intro q hq
        rcases List.mem_append.1 hq with hq | hq
        · rcases h.shape q hq with e | ⟨r, a, b, c⟩
          · exact Or.inl e
          · refine Or.inr ⟨r, a, ?_, c⟩
            rw [hp]; split
            · rfl
            · exact b
        · rw [List.mem_singleton.1 hq]
          refine hxs.imp (fun e => e.1) (fun e => ⟨r, hr1, ?_, e⟩)
          rw [hp]; split
          · rfl
          · exact hr2
      · -- at most one clean message
        have key : ∀ q ∈ s.out, q.2 = plainReport text trace q.1 → x = plainReport text trace t → q.1 = t := by
          intro q hq _ ex
          by_contra hne
          have hc : s.counter ≤ 1 := by
            rcases hxs with e | e
            · exact e.2
            · exact absurd (e.symm.trans ex) (warned_ne_plain text trace t r)
          have := h.cnt [q.1, t] (by simp [hne]) (by
            intro i hi
            rcases List.mem_cons.1 hi with e | e
            · rw [e, hold q hq]; rfl
            · rw [List.mem_singleton.1 e, hpc]; rfl)
          simp at this
          omega
        intro p' hp' q hq e1 e2
        rcases List.mem_append.1 hp' with a | a <;> rcases List.mem_append.1 hq with b | b
        · exact h.clean p' a q b e1 e2
        · rw [List.mem_singleton.1 b] at e2 ⊢; exact key p' a e1 e2
        · rw [List.mem_singleton.1 a] at e1 ⊢; exact (key q b e2 e1).symm
        · rw [List.mem_singleton.1 a, List.mem_singleton.1 b]
    · cases hs

theorem ftInv_run {text trace : Nat → Str} (ts : List Nat) {s s' : FtState} (h : FtInv text trace s) (hs : ftRun text trace s ts = some s') :
    FtInv text trace s' := by
  induction ts generalizing s with
  | nil => cases hs; exact h
  | cons t ts ih =>
    obtain ⟨u, hu, hr⟩ := Option.bind_eq_some_iff.1 hs
    exact ih (ftInv_step h hu) hr

theorem ft_untouched {text trace : Nat → Str} (ts : List Nat) (r : Nat) (hr : r ∉ ts) {s s' : FtState} (h : ftRun text trace s ts = some s') :
    s'.pc r = s.pc r := by
  induction ts generalizing s with
  | nil => cases h; rfl
  | cons t ts ih =>
    obtain ⟨u, hu, hr'⟩ := Option.bind_eq_some_iff.1 h
    have hne : r ≠ t := fun e => hr (e ▸ List.mem_cons_self)
    rw [ih (fun hm => hr (List.mem_cons_of_mem _ hm)) hr']
    unfold ftStep at hu
    split at hu
    · cases hu
    · split at hu <;> first | cases hu | skip
      all_goals first
        | exact if_neg hne
        | (split at hu <;> first | (cases hu; first | rfl | exact if_neg hne) | cases hu)

theorem ft_late {text trace : Nat → Str} (us : List Nat) {s s' : FtState} {t : Nat} (hoff : s.hook = false) (hf : FtPc.flag (s.pc t) ≠ some true)
    (hr : t ∉ s.runs) (h : ftRun text trace s us = some s') : s'.hook = false ∧ FtPc.flag (s'.pc t) ≠ some true ∧ t ∉ s'.runs := by
  induction us generalizing s with
  | nil => cases h; exact ⟨hoff, hf, hr⟩
  | cons i us ih =>
    obtain ⟨u, hu, hr'⟩ := Option.bind_eq_some_iff.1 h
    have key : u.hook = false ∧ FtPc.flag (u.pc t) ≠ some true ∧ t ∉ u.runs := by
      by_cases hi : t = i
      · subst hi
        unfold ftStep at hu
        split at hu
        · cases hu
        · split at hu <;> rename_i hpc <;> rw [hpc] at hf
          · split at hu <;> cases hu
            · exact ⟨hoff, by rw [hpc]; exact hf, hr⟩
            · exact ⟨hoff, by simp [FtState.go, FtPc.flag], hr⟩
          · cases hu; exact ⟨hoff, by simp [FtState.go, FtPc.flag, hoff], hr⟩
          · split at hu <;> cases hu
            exact ⟨hoff, by simpa [FtState.go, FtPc.flag] using hf, hr⟩
          · split at hu <;> cases hu
            · exact ⟨hoff, by rw [hpc]; exact hf, hr⟩
            · exact ⟨hoff, by simpa [FtState.go, FtPc.flag] using hf, hr⟩
          · cases hu; exact ⟨rfl, by simpa [FtState.go, FtPc.flag] using hf, hr⟩
          · cases hu; exact ⟨hoff, by simpa [FtState.go, FtPc.flag] using hf, hr⟩
          · cases hu; exact ⟨hoff, by simpa [FtState.go, FtPc.flag] using hf, hr⟩
          · cases hu; exact ⟨hoff, by simpa [FtState.go, FtPc.flag] using hf, hr⟩
          · rename_i v
            cases v with
            | true => exact absurd rfl hf
            | false => cases hu; exact ⟨hoff, by simp [FtState.go, FtPc.flag], hr⟩
          · cases hu; exact ⟨hoff, by simp [FtState.go, FtPc.flag], hr⟩
          · cases hu
      · have hp : u.pc t = s.pc t := by
          have : ftRun text trace s [i] = some u := by show (ftStep text trace s i).bind _ = _; rw [hu]; rfl
          exact ft_untouched [i] t (by simpa using hi) this
        rw [hp]
        unfold ftStep at hu
        split at hu
        · cases hu
        · split at hu
          · split at hu <;> cases hu <;> exact ⟨hoff, hf, hr⟩
          · cases hu; exact ⟨hoff, hf, hr⟩
          · split at hu <;> cases hu; exact ⟨hoff, hf, hr⟩
          · split at hu <;> cases hu <;> exact ⟨hoff, hf, hr⟩
          · cases hu; exact ⟨rfl, hf, hr⟩
          · cases hu; exact ⟨hoff, hf, hr⟩
          · cases hu; exact ⟨hoff, hf, hr⟩
          · cases hu; exact ⟨hoff, hf, hr⟩
          · cases hu
            refine ⟨hoff, hf, ?_⟩
            show t ∉ (if _ then s.runs ++ [i] else s.runs)
            split
            · simp [hr, hi]
            · exact hr
          · cases hu; exact ⟨hoff, hf, hr⟩
          · cases hu
    exact ih key.1 key.2.1 key.2.2 hr'

/-! ### C74 -/

/-- C74 (partial): whatever the threads do at the same time, every message passed on is complete: the text and the stack trace of its own event,
then nothing or the warning with the stack trace of an event that has really been raised; no event is passed on twice; at most one message is
without the warning. -/
theorem C74_messages_partial {text trace : Nat → Str} {ts : List Nat} {s : FtState} (h : ftRun text trace FtState.start ts = some s) :
    (∀ p ∈ s.out, p.2 = plainReport text trace p.1 ∨ ∃ r ∈ ts, p.2 = warnedReport text trace p.1 r) ∧
    (s.out.map (·.1)).Nodup ∧
    ∀ p ∈ s.out, ∀ q ∈ s.out, p.2 = plainReport text trace p.1 → q.2 = plainReport text trace q.1 → p.1 = q.1 := by
  have hi := ftInv_run ts (ftInv_start text trace) h
  refine ⟨fun p hp => (hi.shape p hp).imp id ?_, hi.once, hi.clean⟩
  rintro ⟨r, _, hr, e⟩
  refine ⟨r, ?_, e⟩
  by_contra hn
  rw [ft_untouched ts r hn h] at hr
  cases hr

/-- C74 (partial): no thread runs the hook twice, and once all events that have begun are over, the hook has been run. -/
theorem C74_hook_partial {text trace : Nat → Str} {ts : List Nat} {s : FtState} (h : ftRun text trace FtState.start ts = some s) :
    s.runs.Nodup ∧ ((∀ t, FtPc.atRest (s.pc t) = true) → s.out ≠ [] → s.runs ≠ []) := by
  have hi := ftInv_run ts (ftInv_start text trace) h
  refine ⟨hi.nodup, fun hr ho e => ?_⟩
  obtain ⟨p, hp⟩ := List.exists_mem_of_ne_nil _ ho
  have hd : s.pc p.1 = .done := (hi.sent p.1).1 (List.mem_map_of_mem hp)
  obtain ⟨t, ht⟩ := hi.left (hi.off p.1 (by rw [hd]; rfl))
  rcases ht with ht | ht
  · rw [e] at ht; cases ht
  · have := hr t
    cases hq : s.pc t <;> rw [hq] at this ht <;> cases this <;> cases ht

/-- C74 (partial): a thread whose event begins after another event has been passed on does not run the hook. -/
theorem C74_late_partial {text trace : Nat → Str} {ts us : List Nat} {s s' : FtState} {t : Nat} (h : ftRun text trace FtState.start ts = some s)
    (ho : s.out ≠ []) (ht : s.pc t = .idle) (h' : ftRun text trace s us = some s') : t ∉ s'.runs := by
  have hi := ftInv_run ts (ftInv_start text trace) h
  obtain ⟨p, hp⟩ := List.exists_mem_of_ne_nil _ ho
  have hd : s.pc p.1 = .done := (hi.sent p.1).1 (List.mem_map_of_mem hp)
  have hoff := hi.off p.1 (by rw [hd]; rfl)
  have hnr : t ∉ s.runs := fun hm => by
    rcases hi.ran t hm with x | x <;> (rw [ht] at x; cases x)
  exact (ft_late us hoff (by rw [ht]; simp [FtPc.flag]) hnr h').2.2

/-- C74 (partial): nobody waits for ever: while an event is in progress some thread with an event in progress can go on. -/
theorem C74_progress_partial {text trace : Nat → Str} {ts : List Nat} {s : FtState} {t : Nat} (h : ftRun text trace FtState.start ts = some s)
    (hu : s.ub = false) (ht : FtPc.atRest (s.pc t) = false) : ∃ t', FtPc.atRest (s.pc t') = false ∧ (ftStep text trace s t').isSome = true := by
  have hi := ftInv_run ts (ftInv_start text trace) h
  by_cases hc : ∃ u, s.pc t = .copied u ∧ s.owner ≠ none
  · obtain ⟨u, hp, ho⟩ := hc
    obtain ⟨o, ho⟩ := Option.ne_none_iff_exists'.1 ho
    have hl := (hi.own o).2 ho
    refine ⟨o, ?_, ?_⟩
    · cases hq : s.pc o <;> rw [hq] at hl <;> first | rfl | cases hl
    · unfold ftStep
      rw [hu]
      cases hq : s.pc o <;> rw [hq] at hl <;> first | cases hl | skip
      · simp only [Bool.false_eq_true, if_false]; split <;> rfl
      · rfl
      · rfl
  · refine ⟨t, ht, ?_⟩
    unfold ftStep
    rw [hu]
    cases hq : s.pc t with
    | idle => rw [hq] at ht; cases ht
    | done => rw [hq] at ht; cases ht
    | copied u =>
      have ho : s.owner = none := by
        by_contra ho
        exact hc ⟨u, hq, ho⟩
      simp [ho]
    | locked u => simp only [Bool.false_eq_true, if_false]; split <;> rfl
    | _ => rfl

/-- C74 fails: two threads run the hook, one after the other. -/
theorem C74_hook_twice : ∃ ts s, ftRun (fun _ => []) (fun _ => []) FtState.start ts = some s ∧ s.ub = false ∧ s.runs = [0, 1] :=
  ⟨[0, 1, 0, 1, 0, 0, 0, 0, 0, 0, 0, 1, 1, 1, 1, 1, 1, 1], _, rfl, rfl, rfl⟩

/-- C74 fails: a message is passed on (and the process may end) before the hook has run at all. -/
theorem C74_hook_late : ∃ ts s, ftRun (fun _ => []) (fun _ => []) FtState.start ts = some s ∧ s.ub = false ∧ s.out ≠ [] ∧ s.runs = [] :=
  ⟨[0, 0, 0, 0, 0, 1, 1, 0, 1, 1, 1, 1, 1, 1, 1, 1], _, rfl, rfl, by decide, rfl⟩

/-- C74 fails: both messages of two simultaneous events say that the crash is recursive and blame the hook. -/
theorem C74_label : ∃ ts s, ftRun (fun _ => []) (fun _ => []) FtState.start ts = some s ∧ s.ub = false ∧
    s.out.map (·.1) = [0, 1] ∧ ∀ p ∈ s.out, p.2 ≠ plainReport (fun _ => []) (fun _ => []) p.1 := by
  refine ⟨[0, 0, 0, 0, 0, 0, 0, 1, 1, 1, 1, 1, 1, 1, 0, 0, 0, 1, 1, 1], _, rfl, rfl, rfl, ?_⟩
  intro p hp
  have e : p.2 = warnedReport (fun _ => []) (fun _ => []) p.1 0 := by
    rw [warned_eq]
    rcases List.mem_cons.1 hp with e | hp
    · rw [e]; rfl
    · rw [List.mem_singleton.1 hp]; rfl
  rw [e]
  exact warned_ne_plain _ _ _ _

/-- C74 fails: one thread copies the hook while another one assigns to it: undefined behaviour. -/
theorem C74_negation : ∃ ts s, ftRun (fun _ => []) (fun _ => []) FtState.start ts = some s ∧ s.ub = true :=
  ⟨[0, 0, 0, 1, 0], _, rfl, rfl⟩

/-- The thread is inside the assignment to the hook. -/
def FtPc.isWriting : FtPc → Bool
  | .writing _ => true
  | _ => false

/-- The state while only thread t has raised an event. -/
structure FtSingle (text trace : Nat → Str) (t : Nat) (s : FtState) : Prop where
  ub : s.ub = false
  writing : s.writing = FtPc.isWriting (s.pc t)
  copiers : s.copiers = if s.pc t = .copying then 1 else 0
  flag : FtPc.flag (s.pc t) ≠ some false
  hook : FtPc.reset (s.pc t) = false → s.hook = true
  counter : s.counter = if FtPc.isCounted (s.pc t) then 1 else 0
  runs : s.runs = if s.pc t = .hooked ∨ s.pc t = .done then [t] else []
  out : s.out = if s.pc t = .done then [(t, plainReport text trace t)] else []

theorem ftSingle_step {text trace : Nat → Str} {t : Nat} {s s' : FtState} (h : FtSingle text trace t s) (hs : ftStep text trace s t = some s') :
    FtSingle text trace t s' := by
  obtain ⟨h1, h2, h3, h4, h5, h6, h7, h8⟩ := h
  unfold ftStep at hs
  split at hs
  · cases hs
  · split at hs <;> rename_i hpc <;> simp only [hpc] at h2 h3 h4 h5 h6 h7 h8
    · rw [if_neg (by rw [h2]; decide)] at hs
      cases hs
      constructor <;> simp_all [FtState.go, FtPc.flag, FtPc.reset, FtPc.isCounted, FtPc.isWriting]
    · cases hs
      have : s.hook = true := h5 rfl
      constructor <;> simp_all [FtState.go, FtPc.flag, FtPc.reset, FtPc.isCounted, FtPc.isWriting]
    · split at hs
      · cases hs
        constructor <;> simp_all [FtState.go, FtPc.flag, FtPc.reset, FtPc.isCounted, FtPc.isWriting]
      · cases hs
    · rw [if_neg (by rw [h3]; simp)] at hs
      cases hs
      constructor <;> simp_all [FtState.go, FtPc.flag, FtPc.reset, FtPc.isCounted, FtPc.isWriting]
    · cases hs
      constructor <;> simp_all [FtState.go, FtPc.flag, FtPc.reset, FtPc.isCounted, FtPc.isWriting]
    · cases hs
      constructor <;> simp_all [FtState.go, FtPc.flag, FtPc.reset, FtPc.isCounted, FtPc.isWriting]
    · cases hs
      constructor <;> simp_all [FtState.go, FtPc.flag, FtPc.reset, FtPc.isCounted, FtPc.isWriting]
    · cases hs
      constructor <;> simp_all [FtState.go, FtPc.flag, FtPc.reset, FtPc.isCounted, FtPc.isWriting]
    · rename_i u
      have hu : u = true := by cases u <;> simp_all [FtPc.flag]
      cases hs
      constructor <;> simp_all [FtState.go, FtPc.flag, FtPc.reset, FtPc.isCounted, FtPc.isWriting]
    · cases hs
      constructor <;> simp_all [FtState.go, FtPc.flag, FtPc.reset, FtPc.isCounted, FtPc.isWriting, plainReport]
    · cases hs

/-- C74 (partial): events that do not overlap are safe: with a single thread the hook is run once, before the message is passed on, which has no
warning. -/
theorem C74_single_partial (text trace : Nat → Str) (t n : Nat) (s : FtState) (h : ftRun text trace FtState.start (List.replicate n t) = some s) :
    s.ub = false ∧ (s.out ≠ [] → s.runs = [t] ∧ s.out = [(t, plainReport text trace t)]) := by
  have key : ∀ n s0, FtSingle text trace t s0 → ftRun text trace s0 (List.replicate n t) = some s → FtSingle text trace t s := by
    intro n
    induction n with
    | zero => intro s0 h0 h; cases h; exact h0
    | succ n ih =>
      intro s0 h0 h
      obtain ⟨u, hu, hr⟩ := Option.bind_eq_some_iff.1 h
      exact ih u (ftSingle_step h0 hu) hr
  have hk := key n FtState.start ⟨rfl, rfl, rfl, by simp [FtState.start, FtPc.flag], fun _ => rfl, rfl, rfl, rfl⟩ h
  refine ⟨hk.ub, fun ho => ?_⟩
  have hd : s.pc t = .done := by
    by_contra hn
    exact ho (by rw [hk.out, if_neg hn])
  exact ⟨by rw [hk.runs, if_pos (Or.inr hd)], by rw [hk.out, if_pos hd]⟩

/-- The hypotheses of the theorems above can be met: one event alone, and then one more while the first is over. -/
example : ∃ s, ftRun (fun _ => "x".toList) (fun _ => "y".toList) FtState.start (List.replicate 10 3) = some s ∧ s.out ≠ [] ∧ s.pc 4 = .idle ∧
    (∃ s', ftRun (fun _ => "x".toList) (fun _ => "y".toList) s (List.replicate 10 4) = some s' ∧ s'.runs = [3] ∧ s'.out.length = 2) ∧
    ∃ s'', ftRun (fun _ => "x".toList) (fun _ => "y".toList) s [4] = some s'' ∧ s''.ub = false ∧ FtPc.atRest (s''.pc 4) = false :=
  ⟨_, rfl, by decide, rfl, ⟨_, rfl, rfl, rfl⟩, ⟨_, rfl, rfl, rfl⟩⟩

end G3.Props
