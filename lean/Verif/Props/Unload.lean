import Verif.Spec.Unload
import Mathlib.Data.List.Induction
/-
C126: messages and the memory of the program.
-/
namespace G3.Props
open G3 G3.Spec

theorem dlRun_append (s : DlState) (l r : List DlLabel) : dlRun s (l ++ r) = (dlRun s l).bind fun s' => dlRun s' r := by
  induction l generalizing s with
  | nil => rfl
  | cons a l ih =>
    simp only [List.cons_append, dlRun]
    cases dlStep s a with
    | none => rfl
    | some s1 => exact ih s1

theorem dlRun_snoc {s s' : DlState} {l : List DlLabel} {a : DlLabel} (h : dlRun s (l ++ [a]) = some s') : ∃ s1, dlRun s l = some s1 ∧ dlStep s1 a = some s' := by
  rw [dlRun_append] at h
  cases h1 : dlRun s l with
  | none => rw [h1] at h; cases h
  | some s1 =>
    rw [h1, Option.bind_some, dlRun] at h
    cases h2 : dlStep s1 a with
    | none => rw [h2] at h; cases h
    | some s2 => rw [h2] at h; cases h; exact ⟨s1, rfl, h2⟩

theorem str_iff (m : DlMem) (a : DlAddr) (s : Str) : m.str a = some s ↔ m a = some (.str s) := by
  unfold DlMem.str
  cases h : m a with
  | none => simp
  | some c => cases c <;> simp

theorem lvl_iff (m : DlMem) (a : DlAddr) (x : Int × Str) : m.lvl a = some x ↔ m a = some (.lvl x.1 x.2) := by
  unfold DlMem.lvl
  obtain ⟨v, t⟩ := x
  cases h : m a with
  | none => simp
  | some c => cases c <;> simp

theorem code_iff (m : DlMem) (a : DlAddr) (k : Nat) : m.code a = some k ↔ m a = some (.code k) := by
  unfold DlMem.code
  cases h : m a with
  | none => simp
  | some c => cases c <;> simp

theorem saveCopy_iff (m : DlMem) (c : DlCapture) (msg : DlMsg) : saveCopy m c = some msg ↔ snapshot m c msg := by
  unfold saveCopy snapshot
  simp only [Option.bind_eq_some_iff, Option.some.injEq, str_iff, lvl_iff]
  constructor
  · rintro ⟨f, h1, g, h2, l, h3, e, h4, rfl⟩
    exact ⟨h1, h2, h3, h4, rfl, rfl⟩
  · rintro ⟨h1, h2, h3, h4, h5, h6⟩
    refine ⟨_, h1, _, h2, (msg.levelValue, msg.levelText), h3, _, h4, ?_⟩
    cases msg
    simp_all

/-- The part of the state that depends on the history only. -/
structure DlInv (m : DlMem) (f : DlAddr) (r : List DlLabel) (s : DlState) : Prop where
  mem : ∀ a, s.mem a = cellAt m a r
  stmts : ∀ k, s.stmts k = stmtAt k r
  formatter : s.formatter = formatterAt f r

theorem update_if {β : Type} (g : Nat → β) (k : Nat) (v : β) (j : Nat) : Function.update g k v j = if k = j then v else g j := by
  by_cases h : j = k
  · subst h; simp
  · rw [Function.update_of_ne h, if_neg (fun e => h e.symm)]

theorem update_ifA {β : Type} (g : DlAddr → β) (k : DlAddr) (v : β) (j : DlAddr) : Function.update g k v j = if k = j then v else g j := by
  by_cases h : j = k
  · subst h; simp
  · rw [Function.update_of_ne h, if_neg (fun e => h e.symm)]

theorem dlInv_step {m : DlMem} {f : DlAddr} {r : List DlLabel} {s s' : DlState} (h : DlInv m f r s) {l : DlLabel} (hs : dlStep s l = some s') (hb : s'.bad = false) : DlInv m f (l :: r) s' := by
  unfold dlStep at hs
  split at hs
  · cases hs
  cases l with
  | «begin» k a n g v e =>
    dsimp only at hs
    split at hs
    · cases hs
    · cases hs
      refine ⟨h.mem, fun j => ?_, h.formatter⟩
      show Function.update s.stmts k _ j = _
      rw [update_if, stmtAt, h.stmts]
  | stream k t =>
    obtain ⟨c, hc, rfl⟩ := Option.map_eq_some_iff.mp hs
    refine ⟨h.mem, fun j => ?_, h.formatter⟩
    show Function.update s.stmts k _ j = _
    rw [update_if, stmtAt]
    by_cases e : k = j
    · subst e
      rw [if_pos rfl, if_pos rfl, ← h.stmts, hc]; rfl
    · rw [if_neg e, if_neg e, h.stmts]
  | close k =>
    obtain ⟨c, hc, rfl⟩ := Option.map_eq_some_iff.mp hs
    cases hm : saveCopy s.mem c with
    | none => simp [hm] at hb
    | some msg =>
      refine ⟨h.mem, fun j => ?_, h.formatter⟩
      show Function.update s.stmts k _ j = _
      rw [update_if, stmtAt, h.stmts]
  | take =>
    dsimp only at hs
    split at hs
    · cases hs
    · split at hs
      · cases hs; exact ⟨h.mem, h.stmts, h.formatter⟩
      · cases hs; cases hb
  | override a => cases hs; exact ⟨h.mem, h.stmts, rfl⟩
  | write a c =>
    cases hs
    refine ⟨fun b => ?_, h.stmts, h.formatter⟩
    show Function.update s.mem a _ b = _
    rw [update_ifA, cellAt, h.mem]
  | free a =>
    cases hs
    refine ⟨fun b => ?_, h.stmts, h.formatter⟩
    show Function.update s.mem a _ b = _
    rw [update_ifA, cellAt, h.mem]
  | unload i =>
    cases hs
    refine ⟨fun b => ?_, h.stmts, h.formatter⟩
    show (if b.owner = i + 1 then none else s.mem b) = _
    rw [cellAt, h.mem]

theorem dlStep_bad {s s' : DlState} {l : DlLabel} (h : dlStep s l = some s') : s.bad = false := by
  cases hb : s.bad with
  | false => rfl
  | true => unfold dlStep at h; rw [if_pos hb] at h; cases h

theorem dlInv_run {m : DlMem} {f : DlAddr} (ls : List DlLabel) {s : DlState} (h : dlRun (dlStart m f) ls = some s) (hb : s.bad = false) : DlInv m f ls.reverse s := by
  induction ls using List.reverseRecOn generalizing s with
  | nil => cases h; exact ⟨fun _ => rfl, fun _ => rfl, rfl⟩
  | append_singleton l a ih =>
    obtain ⟨s1, h1, h2⟩ := dlRun_snoc h
    rw [List.reverse_append]
    exact dlInv_step (ih h1 (dlStep_bad h2)) h2 hb

/-- **C126** (exact). In every history without undefined behaviour the messages that have been formatted, followed by those that wait, are exactly those of the statements that have been closed, in that order, each with the contents that memory had
when it was closed; and the functions that formatted are those set at that time. Nothing that has happened to memory since plays a role. -/
theorem C126_exact (m : DlMem) (f : DlAddr) (ls : List DlLabel) (s : DlState) (h : dlRun (dlStart m f) ls = some s) (hb : s.bad = false) :
    Closed m ls.reverse (s.out.map Prod.snd ++ s.queue) ∧ Formatted m f ls.reverse (s.out.map Prod.fst) := by
  induction ls using List.reverseRecOn generalizing s with
  | nil => cases h; exact ⟨.nil, .nil⟩
  | append_singleton l a ih =>
    obtain ⟨s1, h1, h2⟩ := dlRun_snoc h
    have hb1 := dlStep_bad h2
    obtain ⟨i1, i2⟩ := ih s1 h1 hb1
    have inv := dlInv_run l h1 hb1
    rw [List.reverse_append, List.reverse_singleton, List.singleton_append]
    unfold dlStep at h2
    rw [if_neg (by rw [hb1]; simp)] at h2
    cases a with
    | «begin» k a n g v e =>
      dsimp only at h2
      split at h2
      · cases h2
      · cases h2; exact ⟨.other i1 (by simp), .other i2 (by simp)⟩
    | stream k t =>
      obtain ⟨c, hc, rfl⟩ := Option.map_eq_some_iff.mp h2
      exact ⟨.other i1 (by simp), .other i2 (by simp)⟩
    | close k =>
      obtain ⟨c, hc, rfl⟩ := Option.map_eq_some_iff.mp h2
      cases hm : saveCopy s1.mem c with
      | none => simp [hm] at hb
      | some msg =>
        refine ⟨?_, .other i2 (by simp)⟩
        have hs := (saveCopy_iff _ _ _).mp hm
        have : s1.mem = fun a => cellAt m a l.reverse := funext inv.mem
        rw [this] at hs
        have := Closed.close i1 (by rw [← inv.stmts, hc]) hs
        rw [List.append_assoc] at this
        exact this
    | take =>
      dsimp only at h2
      split at h2
      · cases h2
      · rename_i msg q hq
        split at h2
        · rename_i k hk
          cases h2
          constructor
          · have := Closed.other (x := .take) i1 (by simp)
            rw [hq] at this
            simpa using this
          · have hk' := (code_iff _ _ _).mp hk
            rw [inv.mem, inv.formatter] at hk'
            simpa using Formatted.take i2 hk'
        · cases h2; cases hb
    | override a => cases h2; exact ⟨.other i1 (by simp), .other i2 (by simp)⟩
    | write a c => cases h2; exact ⟨.other i1 (by simp), .other i2 (by simp)⟩
    | free a => cases h2; exact ⟨.other i1 (by simp), .other i2 (by simp)⟩
    | unload i => cases h2; exact ⟨.other i1 (by simp), .other i2 (by simp)⟩

/-- The messages of a history are determined by it. -/
theorem closed_unique {m : DlMem} {r : List DlLabel} {l1 l2 : List DlMsg} (h1 : Closed m r l1) (h2 : Closed m r l2) : l1 = l2 := by
  induction h1 generalizing l2 with
  | nil => cases h2; rfl
  | close a b c ih =>
    cases h2 with
    | close a' b' c' =>
      rw [ih a']
      rw [b] at b'
      cases b'
      have : ∀ (c : DlCapture) (μ : DlAddr → Option DlCell) (msg msg' : DlMsg), snapshot μ c msg → snapshot μ c msg' → msg = msg' := by
        intro d μ msg msg' c c'
        obtain ⟨x1, x2, x3, x4, x5, x6⟩ := c
        obtain ⟨y1, y2, y3, y4, y5, y6⟩ := c'
        rw [x1] at y1; rw [x2] at y2; rw [x3] at y3; rw [x4] at y4
        cases msg; cases msg'
        simp_all
      rw [this _ _ _ _ c c']
    | other a' hx => exact absurd rfl (hx _)
  | other a hx ih =>
    cases h2 with
    | close a' b' c' => exact absurd rfl (hx _)
    | other a' _ => exact ih a'

/-- **C126** (safe). Undefined behaviour occurs exactly if a statement that is being executed loses the memory of its own names or level, or the sink its formatter: a step leads to it if and only if it lacks what it needs. -/
theorem C126_safe (m : DlMem) (f : DlAddr) (ls : List DlLabel) (l : DlLabel) (s s' : DlState) (h : dlRun (dlStart m f) ls = some s) (hs : dlStep s l = some s') :
    s'.bad = false ↔ needs m f ls.reverse l := by
  have hb := dlStep_bad hs
  have inv := dlInv_run ls h hb
  have hmem : s.mem = fun a => cellAt m a ls.reverse := funext inv.mem
  unfold dlStep at hs
  rw [if_neg (by rw [hb]; simp)] at hs
  cases l with
  | «begin» k a n g v e =>
    dsimp only at hs
    split at hs
    · cases hs
    · cases hs
      show (s.mem.lvl v).isNone = false ↔ ∃ x t, cellAt m v ls.reverse = some (.lvl x t)
      rw [← inv.mem]
      cases hl : s.mem.lvl v with
      | none =>
        simp only [Option.isNone_none]
        constructor
        · intro h; cases h
        · rintro ⟨x, t, ht⟩
          rw [(lvl_iff _ _ (x, t)).mpr ht] at hl; cases hl
      | some x => exact ⟨fun _ => ⟨x.1, x.2, (lvl_iff _ _ _).mp hl⟩, fun _ => rfl⟩
  | stream k t =>
    obtain ⟨c, hc, rfl⟩ := Option.map_eq_some_iff.mp hs
    exact ⟨fun _ => trivial, fun _ => hb⟩
  | close k =>
    obtain ⟨c, hc, rfl⟩ := Option.map_eq_some_iff.mp hs
    have hc' : stmtAt k ls.reverse = some c := by rw [← inv.stmts]; exact hc
    show _ ↔ ∀ c, stmtAt k ls.reverse = some c → ∃ msg, snapshot (fun a => cellAt m a ls.reverse) c msg
    rw [← hmem]
    cases hm : saveCopy s.mem c with
    | none =>
      simp only [Bool.true_eq_false, false_iff]
      intro H
      obtain ⟨msg, h1⟩ := H c hc'
      rw [(saveCopy_iff _ _ _).mpr h1] at hm; cases hm
    | some msg =>
      refine ⟨fun _ c2 h2 => ?_, fun _ => hb⟩
      rw [hc'] at h2; cases h2
      exact ⟨msg, (saveCopy_iff _ _ _).mp hm⟩
  | take =>
    dsimp only at hs
    show _ ↔ ∃ k, cellAt m (formatterAt f ls.reverse) ls.reverse = some (.code k)
    rw [← inv.formatter, ← inv.mem]
    split at hs
    · cases hs
    · split at hs
      · rename_i k hk
        cases hs
        exact ⟨fun _ => ⟨k, (code_iff _ _ _).mp hk⟩, fun _ => hb⟩
      · rename_i hk
        cases hs
        simp only [Bool.true_eq_false, false_iff]
        rintro ⟨k, h1⟩
        rw [(code_iff _ _ _).mpr h1] at hk; cases hk
  | override a => cases hs; exact ⟨fun _ => trivial, fun _ => hb⟩
  | write a c => cases hs; exact ⟨fun _ => trivial, fun _ => hb⟩
  | free a => cases hs; exact ⟨fun _ => trivial, fun _ => hb⟩
  | unload i => cases hs; exact ⟨fun _ => trivial, fun _ => hb⟩

/-- **C126** (histories). A history in which every step has what it needs has no undefined behaviour, and its log consists of the messages of the statements that have been closed, whatever else was freed, used again or unloaded. -/
theorem C126_history (m : DlMem) (f : DlAddr) (ls : List DlLabel) (s : DlState) (h : dlRun (dlStart m f) ls = some s) (hn : ∀ pre l post, ls = pre ++ l :: post → needs m f pre.reverse l) :
    s.bad = false ∧ Closed m ls.reverse (s.out.map Prod.snd ++ s.queue) ∧ ∀ msgs, Closed m ls.reverse msgs → msgs = s.out.map Prod.snd ++ s.queue := by
  have hb : s.bad = false := by
    induction ls using List.reverseRecOn with
    | nil => cases h; rfl
    | append_singleton l a _ =>
      obtain ⟨s1, h1, h2⟩ := dlRun_snoc h
      exact (C126_safe m f l a s1 s h1 h2).mpr (hn l a [] rfl)
  have hc := (C126_exact m f ls s h hb).1
  exact ⟨hb, hc, fun msgs hm => closed_unique hm hc⟩

/-! ### Messages that wait -/

theorem memory_run (ls : List DlLabel) (hl : ∀ l ∈ ls, memoryStep l) (s : DlState) (hb : s.bad = false) :
    ∃ mem', dlRun s ls = some { s with mem := mem' } := by
  induction ls generalizing s with
  | nil => exact ⟨s.mem, rfl⟩
  | cons l r ih =>
    have hs : ∃ mem', dlStep s l = some { s with mem := mem' } := by
      have := hl l (List.mem_cons_self ..)
      unfold dlStep
      rw [if_neg (by rw [hb]; simp)]
      cases l with
      | write a c => exact ⟨_, rfl⟩
      | free a => exact ⟨_, rfl⟩
      | unload i => exact ⟨_, rfl⟩
      | _ => exact this.elim
    obtain ⟨m1, e1⟩ := hs
    obtain ⟨m2, e2⟩ := ih (fun l h => hl l (List.mem_cons_of_mem _ h)) { s with mem := m1 } hb
    exact ⟨m2, by rw [dlRun, e1]; exact e2⟩

theorem take_run (n : Nat) (s : DlState) (hb : s.bad = false) (k : Nat) (hk : s.mem.code s.formatter = some k) (hn : n ≤ s.queue.length) :
    dlRun s (List.replicate n .take) = some { s with queue := s.queue.drop n, out := s.out ++ (s.queue.take n).map fun x => (k, x) } := by
  induction n generalizing s with
  | zero => simp [dlRun]
  | succ n ih =>
    cases hq : s.queue with
    | nil => rw [hq] at hn; simp at hn
    | cons x q =>
      have e1 : dlStep s .take = some { s with queue := q, out := s.out ++ [(k, x)] } := by
        unfold dlStep
        rw [if_neg (by rw [hb]; simp)]
        simp only [hq, hk]
      rw [List.replicate_succ, dlRun, e1, Option.bind_some, ih { s with queue := q, out := s.out ++ [(k, x)] } hb hk (by rw [hq] at hn; simpa using hn)]
      simp

/-- **C126.** Whatever the program does to its memory while messages wait, with libraries unloaded, memory freed and used again for anything, the messages come out as they were when their statements ended: the log is the same as if nothing had been done, provided the function
that formats is still there. -/
theorem C126_statement (s : DlState) (hb : s.bad = false) (ls : List DlLabel) (hl : ∀ l ∈ ls, memoryStep l) (k : Nat) (hk : s.mem s.formatter = some (.code k))
    (s1 : DlState) (h1 : dlRun s ls = some s1) (hk1 : s1.mem s.formatter = some (.code k)) (n : Nat) (hn : n ≤ s.queue.length) :
    ∃ a b, dlRun s (ls ++ List.replicate n .take) = some a ∧ dlRun s (List.replicate n .take) = some b ∧ a.bad = false ∧ a.out = b.out ∧ a.queue = b.queue ∧
      a.out = s.out ++ (s.queue.take n).map (fun x => (k, x)) := by
  obtain ⟨m', e⟩ := memory_run ls hl s hb
  have : s1 = { s with mem := m' } := Option.some.inj (h1.symm.trans e)
  subst this
  have ea : dlRun s (ls ++ List.replicate n .take) = some { s with mem := m', queue := s.queue.drop n, out := s.out ++ (s.queue.take n).map fun x => (k, x) } := by
    rw [dlRun_append, e, Option.bind_some]
    exact take_run n { s with mem := m' } hb k ((code_iff _ _ _).mpr hk1) hn
  exact ⟨_, _, ea, take_run n s hb k ((code_iff _ _ _).mpr hk) hn, hb, rfl, rfl, rfl⟩

/-- **C126** (unloading). A library that no longer executes a statement can be unloaded while its messages wait, unless the function that formats is its own. -/
theorem C126_unload (s : DlState) (hb : s.bad = false) (i : Nat) (k : Nat) (hk : s.mem s.formatter = some (.code k)) (ho : s.formatter.owner ≠ i + 1) :
    ∃ a b, dlRun s (.unload i :: List.replicate s.queue.length .take) = some a ∧ dlRun s (List.replicate s.queue.length .take) = some b ∧ a.bad = false ∧ a.out = b.out ∧ a.queue = [] ∧
      (∀ x, x.owner = i + 1 → a.mem x = none) ∧ (∀ x, x.owner ≠ i + 1 → a.mem x = s.mem x) := by
  have e : dlStep s (.unload i) = some { s with mem := fun a => if a.owner = i + 1 then none else s.mem a } := by
    unfold dlStep; rw [if_neg (by rw [hb]; simp)]
  refine ⟨{ s with mem := fun a => if a.owner = i + 1 then none else s.mem a, queue := [], out := s.out ++ s.queue.map fun x => (k, x) }, _, ?_, take_run _ s hb k ((code_iff _ _ _).mpr hk) (Nat.le_refl _), ?_⟩
  · rw [dlRun, e, Option.bind_some, take_run _ { s with mem := fun a => if a.owner = i + 1 then none else s.mem a } hb k ((code_iff _ _ _).mpr (by dsimp only; rw [if_neg ho]; exact hk)) (Nat.le_refl _)]
    simp
  · refine ⟨hb, by simp, rfl, fun x hx => ?_, fun x hx => ?_⟩
    · show (if x.owner = i + 1 then none else s.mem x) = none
      rw [if_pos hx]
    · show (if x.owner = i + 1 then none else s.mem x) = s.mem x
      rw [if_neg hx]

/-- **C126** (the exception). A library whose own function formats must not be unloaded while a message waits: the next message leads to undefined behaviour. -/
theorem C126_formatter (s : DlState) (hb : s.bad = false) (i : Nat) (ho : s.formatter.owner = i + 1) (hq : s.queue ≠ []) :
    ∃ a, dlRun s [.unload i, .take] = some a ∧ a.bad = true := by
  have e : dlStep s (.unload i) = some { s with mem := fun a => if a.owner = i + 1 then none else s.mem a } := by
    unfold dlStep; rw [if_neg (by rw [hb]; simp)]
  cases hx : s.queue with
  | nil => exact absurd hx hq
  | cons x q =>
    refine ⟨{ s with mem := fun a => if a.owner = i + 1 then none else s.mem a, bad := true }, ?_, rfl⟩
    have e2 : dlStep { s with mem := fun a => if a.owner = i + 1 then none else s.mem a } .take = some { s with mem := fun a => if a.owner = i + 1 then none else s.mem a, bad := true } := by
      unfold dlStep
      rw [if_neg (show ¬ s.bad = true by rw [hb]; simp)]
      simp only [hx, DlMem.code, ho, if_pos]
    rw [dlRun, e, Option.bind_some, dlRun, e2]
    rfl

/-- **C126** (during the statement). Names that are changed while the statement is being executed are those of the end: not the moment of the beginning counts. -/
theorem C126_end_counts (s : DlState) (hb : s.bad = false) (k : Nat) (c : DlCapture) (hc : s.stmts k = some c) (y : Str) (msg : DlMsg) (h : snapshot s.mem c msg)
    (h1 : c.function ≠ c.file) (h2 : c.function ≠ c.level) (h3 : c.function ≠ c.expression) :
    ∃ a, dlRun s [.write c.function (.str y), .close k] = some a ∧ a.bad = false ∧ a.queue = s.queue ++ [{ msg with function := y }] := by
  have e1 : dlStep s (.write c.function (.str y)) = some { s with mem := Function.update s.mem c.function (some (.str y)) } := by
    unfold dlStep; rw [if_neg (by rw [hb]; simp)]
  obtain ⟨x1, x2, x3, x4, x5, x6⟩ := h
  have hs : saveCopy (Function.update s.mem c.function (some (.str y))) c = some { msg with function := y } := by
    rw [saveCopy_iff]
    refine ⟨?_, ?_, ?_, ?_, x5, x6⟩
    · rw [Function.update_of_ne (Ne.symm h1)]; exact x1
    · simp
    · rw [Function.update_of_ne (Ne.symm h2)]; exact x3
    · rw [Function.update_of_ne (Ne.symm h3)]; exact x4
  have e2 : dlStep { s with mem := Function.update s.mem c.function (some (.str y)) } (.close k) =
      some { s with mem := Function.update s.mem c.function (some (.str y)), stmts := Function.update s.stmts k none, queue := s.queue ++ [{ msg with function := y }] } := by
    unfold dlStep
    rw [if_neg (show ¬ s.bad = true by rw [hb]; simp)]
    simp only [hc, Option.map_some, hs]
  refine ⟨{ s with mem := Function.update s.mem c.function (some (.str y)), stmts := Function.update s.stmts k none, queue := s.queue ++ [{ msg with function := y }] }, ?_, hb, rfl⟩
  rw [dlRun, e1, Option.bind_some, dlRun, e2]
  rfl

/-! ### Examples -/

/-- Memory of a program with a formatter and a library with a file name, a function name, a level and an expression. -/
def exampleMem : DlMem := fun a =>
  if a = ⟨0, 0⟩ then some (.code 7) else if a = ⟨1, 0⟩ then some (.str ['f']) else if a = ⟨1, 1⟩ then some (.str ['g']) else if a = ⟨1, 2⟩ then some (.lvl 100 ['I'])
  else if a = ⟨1, 3⟩ then some (.str []) else none

/-- The library logs, its function name is overwritten, it is unloaded, and only then the message is formatted. -/
example : (dlRun (dlStart exampleMem ⟨0, 0⟩) [.begin 4 ⟨1, 0⟩ 12 ⟨1, 1⟩ ⟨1, 2⟩ ⟨1, 3⟩, .stream 4 ['x'], .stream 4 ['y'], .close 4, .write ⟨1, 1⟩ (.str ['z']), .unload 0, .take]).map (fun s => (s.out, s.bad)) =
    some ([(7, ⟨['f'], 12, ['g'], 100, ['I'], [], ['x', 'y']⟩)], false) := by decide

/-- Unloaded too early, during the statement. -/
example : (dlRun (dlStart exampleMem ⟨0, 0⟩) [.begin 4 ⟨1, 0⟩ 12 ⟨1, 1⟩ ⟨1, 2⟩ ⟨1, 3⟩, .unload 0, .close 4]).map (fun s => s.bad) = some true := by decide

/-- With a formatter of its own. -/
example : (dlRun (dlStart exampleMem ⟨0, 0⟩) [.write ⟨1, 9⟩ (.code 8), .override ⟨1, 9⟩, .begin 4 ⟨1, 0⟩ 12 ⟨1, 1⟩ ⟨1, 2⟩ ⟨1, 3⟩, .close 4, .unload 0, .take]).map (fun s => s.bad) = some true := by decide

end G3.Props
