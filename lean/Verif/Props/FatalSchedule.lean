import Verif.Props.FatalThreads
import Verif.Spec.FatalSchedule
import Mathlib.Data.List.Induction
/-
C74, exactly: what simultaneous fatal events do, for every schedule.
-/
namespace G3.Props
open G3 G3.Spec

theorem made_self (h : List Nat) (t : Nat) : made (t :: h) t = made h t + 1 := by simp [made]
theorem made_other (h : List Nat) {t v : Nat} (hv : v ≠ t) : made (t :: h) v = made h v := by
  unfold made; rw [List.count_cons_of_ne]; exact hv.symm
theorem made_pos {h : List Nat} {v : Nat} (hp : 0 < made h v) : v ∈ h := List.count_pos_iff.1 hp

theorem someAt_iff (h : List Nat) (n : Nat) (hn : 0 < n) : someAt h n = true ↔ ∃ v, made h v = n := by
  unfold someAt
  rw [List.any_eq_true]
  constructor
  · rintro ⟨v, _, e⟩; exact ⟨v, by simpa using e⟩
  · rintro ⟨v, e⟩; exact ⟨v, made_pos (by omega), by simpa using e⟩

theorem someFrom_iff (h : List Nat) (n : Nat) (hn : 0 < n) : someFrom h n = true ↔ ∃ v, n ≤ made h v := by
  unfold someFrom
  rw [List.any_eq_true]
  constructor
  · rintro ⟨v, _, e⟩; exact ⟨v, by simpa using e⟩
  · rintro ⟨v, e⟩; exact ⟨v, made_pos (by omega), by simpa using e⟩

theorem company_iff (h : List Nat) (t : Nat) : company h t = true ↔ ∃ v, v ≠ t ∧ 7 ≤ made h v := by
  unfold company
  rw [List.any_eq_true]
  constructor
  · rintro ⟨v, _, e⟩
    rw [Bool.and_eq_true, bne_iff_ne, decide_eq_true_eq] at e
    exact ⟨v, e⟩
  · rintro ⟨v, e1, e2⟩
    refine ⟨v, made_pos (by omega), ?_⟩
    rw [Bool.and_eq_true, bne_iff_ne, decide_eq_true_eq]
    exact ⟨e1, e2⟩

/-- A number counts the threads with a property. -/
def Tally (P : Nat → Prop) (n : Nat) : Prop := ∃ l : List Nat, l.Nodup ∧ (∀ u, u ∈ l ↔ P u) ∧ l.length = n

theorem Tally.congr {P Q : Nat → Prop} {n : Nat} (h : Tally P n) (e : ∀ u, P u ↔ Q u) : Tally Q n := by
  obtain ⟨l, a, b, c⟩ := h
  exact ⟨l, a, fun u => (b u).trans (e u), c⟩

theorem Tally.add {P Q : Nat → Prop} {n t : Nat} (h : Tally P n) (ht : ¬ P t) (e : ∀ u, Q u ↔ (u = t ∨ P u)) : Tally Q (n + 1) := by
  obtain ⟨l, a, b, c⟩ := h
  refine ⟨t :: l, List.nodup_cons.2 ⟨fun hm => ht ((b t).1 hm), a⟩, fun u => ?_, by simp [c]⟩
  rw [List.mem_cons, e, b]

theorem Tally.drop {P Q : Nat → Prop} {n t : Nat} (h : Tally P n) (ht : P t) (e : ∀ u, Q u ↔ (u ≠ t ∧ P u)) : Tally Q (n - 1) := by
  obtain ⟨l, a, b, c⟩ := h
  refine ⟨l.erase t, a.erase t, fun u => ?_, by rw [List.length_erase_of_mem ((b t).2 ht), c]⟩
  rw [a.mem_erase_iff, b, e]

theorem Tally.pos {P : Nat → Prop} {n : Nat} (h : Tally P n) : 0 < n ↔ ∃ u, P u := by
  obtain ⟨l, _, b, c⟩ := h
  rw [← c, List.length_pos_iff_exists_mem]
  exact exists_congr b

theorem Tally.two {P : Nat → Prop} {n t : Nat} (h : Tally P n) (ht : P t) : 1 < n ↔ ∃ u, u ≠ t ∧ P u := by
  have := (h.drop (Q := fun u => u ≠ t ∧ P u) ht (fun _ => Iff.rfl)).pos
  rw [← this]
  omega

/-- Where a thread is after n steps. -/
def stageOf (u : Bool) : Nat → FtPc
  | 0 => .idle
  | 1 => .copying
  | 2 => .copied u
  | 3 => .locked u
  | 4 => .writing u
  | 5 => .written u
  | 6 => .unlocked u
  | 7 => .counted u
  | 8 => .traced u
  | 9 => .hooked
  | _ => .done

/-- The model's state is what the schedule says. -/
structure FtFollows (text trace : Nat → Str) (h : List Nat) (s : FtState) : Prop where
  ub : s.ub = false
  pc : ∀ t, s.pc t = stageOf (gotHook t h) (made h t)
  le : ∀ t, made h t ≤ 10
  hook : s.hook = true ↔ ∀ v, made h v < 5
  writing : s.writing = true ↔ ∃ v, made h v = 4
  owner : ∀ v, s.owner = some v ↔ 3 ≤ made h v ∧ made h v ≤ 5
  copiers : Tally (fun v => made h v = 1) s.copiers
  counter : Tally (fun v => 7 ≤ made h v) s.counter
  first : s.first = (keptTrace h).map trace
  kept : (∃ v, 8 ≤ made h v) → (keptTrace h).isSome = true
  runs : s.runs = hookRuns h
  out : s.out = reports text trace h

theorem ftFollows_start (text trace : Nat → Str) : FtFollows text trace [] FtState.start := by
  refine ⟨rfl, fun _ => rfl, fun _ => by simp [made], ?_, ?_, ?_, ?_, ?_, rfl, ?_, rfl, rfl⟩
  · exact ⟨fun _ _ => by simp [made], fun _ => rfl⟩
  · constructor
    · intro h; cases h
    · rintro ⟨v, h⟩; simp [made] at h
  · intro v
    constructor
    · intro h; cases h
    · rintro ⟨h, _⟩; simp [made] at h
  · exact ⟨[], List.nodup_nil, fun u => by simp [made], rfl⟩
  · exact ⟨[], List.nodup_nil, fun u => by simp [made], rfl⟩
  · rintro ⟨v, h⟩; simp [made] at h

theorem gotHook_other {t u : Nat} {h : List Nat} (hne : u ≠ t) : gotHook t (u :: h) = gotHook t h :=
  if_neg (fun hh => hne hh.1)

theorem gotHook_not {t u : Nat} {h : List Nat} (hne : made h t ≠ 1) : gotHook t (u :: h) = gotHook t h :=
  if_neg (fun hh => hne hh.2)

/-- The places of the threads after a step of t. -/
theorem ftFollows_pc {text trace : Nat → Str} {h : List Nat} {s : FtState} (f : FtFollows text trace h s) (t : Nat) (p : FtPc)
    (hp : p = stageOf (gotHook t (t :: h)) (made h t + 1)) (v : Nat) :
    (s.go t p).pc v = stageOf (gotHook v (t :: h)) (made (t :: h) v) := by
  show (if v = t then p else s.pc v) = _
  by_cases hv : v = t
  · subst hv; rw [if_pos rfl, made_self, hp]
  · rw [if_neg hv, made_other h hv, gotHook_other (Ne.symm hv), f.pc v]

theorem all_cons {h : List Nat} {t : Nat} {P : Nat → Prop} : (∀ v, P (made (t :: h) v)) ↔ P (made h t + 1) ∧ ∀ v, v ≠ t → P (made h v) := by
  constructor
  · intro a
    refine ⟨?_, fun v hv => ?_⟩
    · have := a t; rwa [made_self] at this
    · have := a v; rwa [made_other h hv] at this
  · rintro ⟨a, b⟩ v
    by_cases hv : v = t
    · subst hv; rw [made_self]; exact a
    · rw [made_other h hv]; exact b v hv

theorem ex_cons {h : List Nat} {t : Nat} {P : Nat → Prop} : (∃ v, P (made (t :: h) v)) ↔ P (made h t + 1) ∨ ∃ v, v ≠ t ∧ P (made h v) := by
  constructor
  · rintro ⟨v, a⟩
    by_cases hv : v = t
    · subst hv; rw [made_self] at a; exact Or.inl a
    · rw [made_other h hv] at a; exact Or.inr ⟨v, hv, a⟩
  · rintro (a | ⟨v, hv, a⟩)
    · exact ⟨t, by rw [made_self]; exact a⟩
    · exact ⟨v, by rw [made_other h hv]; exact a⟩

/-- A property of one number that does not change between two numbers of steps. -/
theorem at_cons {h : List Nat} {t : Nat} {P : Nat → Prop} (e : P (made h t + 1) ↔ P (made h t)) (v : Nat) :
    P (made (t :: h) v) ↔ P (made h v) := by
  by_cases hv : v = t
  · subst hv; rw [made_self]; exact e
  · rw [made_other h hv]

/-- What a step of a thread means, step by step. -/
theorem ftFollows_step {text trace : Nat → Str} {h : List Nat} {s : FtState} (f : FtFollows text trace h s) (hp : possible h = true)
    (hc : collision h = false) (t : Nat) :
    (possible (t :: h) = false ∧ ftStep text trace s t = none) ∨
    (possible (t :: h) = true ∧ collision (t :: h) = true ∧ ftStep text trace s t = some { s with ub := true } ∧
      hookRuns (t :: h) = hookRuns h ∧ reports text trace (t :: h) = reports text trace h) ∨
    (possible (t :: h) = true ∧ collision (t :: h) = false ∧ ∃ s', ftStep text trace s t = some s' ∧ FtFollows text trace (t :: h) s') := by
  have hle := f.le t
  have hpc := f.pc t
  have poss : possible (t :: h) = (decide (made h t < 10) && (made h t != 2 || !(someAt h 3 || someAt h 4 || someAt h 5))) := by
    show (possible h && !collision h && decide (made h t < 10) && _) = _
    rw [hp, hc]; rfl
  have coll : collision (t :: h) = ((made h t == 0 && someAt h 4) || (made h t == 3 && someAt h 1)) := by
    show (collision h || _ || _) = _
    rw [hc]; rfl
  have hr : made h t ≠ 8 → hookRuns (t :: h) = hookRuns h := fun hn => if_neg (fun hh => hn hh.1)
  have ho : made h t ≠ 9 → reports text trace (t :: h) = reports text trace h := fun hn => if_neg hn
  have hk : made h t ≠ 7 → keptTrace (t :: h) = keptTrace h := by
    intro hn
    show (match keptTrace h with | some r => some r | none => if made h t = 7 then some t else none) = _
    rw [if_neg hn]
    cases keptTrace h <;> rfl
  have step0 : ftStep text trace s t = match s.pc t with
      | .idle => if s.writing then some { s with ub := true } else some { s.go t .copying with copiers := s.copiers + 1 }
      | .copying => some { s.go t (.copied s.hook) with copiers := s.copiers - 1 }
      | .copied u => if s.owner = none then some { s.go t (.locked u) with owner := some t } else none
      | .locked u => if 0 < s.copiers then some { s with ub := true } else some { s.go t (.writing u) with writing := true }
      | .writing u => some { s.go t (.written u) with writing := false, hook := false }
      | .written u => some { s.go t (.unlocked u) with owner := none }
      | .unlocked u => some { s.go t (.counted u) with counter := s.counter + 1 }
      | .counted u => some { s.go t (.traced u) with first := some (s.first.getD (trace t)) }
      | .traced u => some { s.go t .hooked with runs := if u then s.runs ++ [t] else s.runs }
      | .hooked =>
        some { s.go t .done with
          out := s.out ++ [(t, text t ++ trace t ++ if 1 < s.counter then recursiveText (s.first.getD []) else [])] }
      | .done => none := by
    unfold ftStep
    rw [f.ub]
    rfl
  rw [step0]
  have hn : made h t = 0 ∨ made h t = 1 ∨ made h t = 2 ∨ made h t = 3 ∨ made h t = 4 ∨ made h t = 5 ∨ made h t = 6 ∨ made h t = 7 ∨
      made h t = 8 ∨ made h t = 9 ∨ made h t = 10 := by omega
  rcases hn with hn | hn | hn | hn | hn | hn | hn | hn | hn | hn | hn
  · -- the copy begins
    rw [show s.pc t = .idle by rw [hpc, hn]; rfl]
    dsimp only
    right
    rw [poss, coll, hn]
    by_cases hw : s.writing = true
    · left
      rw [if_pos hw, (someAt_iff h 4 (by omega)).2 (f.writing.1 hw)]
      exact ⟨rfl, rfl, rfl, hr (by omega), ho (by omega)⟩
    · right
      have h4 : someAt h 4 = false := by
        cases hx : someAt h 4 with
        | false => rfl
        | true => exact absurd (f.writing.2 ((someAt_iff h 4 (by omega)).1 hx)) hw
      rw [if_neg hw, h4]
      refine ⟨rfl, rfl, _, rfl, ?_⟩
      refine ⟨f.ub, ftFollows_pc f t .copying (by rw [hn]; rfl), fun v => ?_, ?_, ?_, ?_, ?_, ?_, ?_, ?_, ?_, ?_⟩
      · exact (at_cons (P := fun n => n ≤ 10) (by omega) v).2 (f.le v)
      · exact f.hook.trans (forall_congr' fun v => (at_cons (P := fun n => n < 5) (by omega) v).symm)
      · exact f.writing.trans (exists_congr fun v => (at_cons (P := fun n => n = 4) (by omega) v).symm)
      · exact fun v => (f.owner v).trans (at_cons (P := fun n => 3 ≤ n ∧ n ≤ 5) (by omega) v).symm
      · refine f.copiers.add (t := t) (by rw [hn]; omega) (fun v => ?_)
        by_cases hv : v = t
        · subst hv; rw [made_self]; exact ⟨fun _ => Or.inl rfl, fun _ => by omega⟩
        · rw [made_other h hv]; exact ⟨Or.inr, fun x => x.resolve_left hv⟩
      · exact f.counter.congr (fun v => (at_cons (P := fun n => 7 ≤ n) (by omega) v).symm)
      · rw [hk (by omega)]; exact f.first
      · rw [hk (by omega)]
        exact fun hx => f.kept (hx.imp fun v => (at_cons (P := fun n => 8 ≤ n) (by omega) v).1)
      · rw [hr (by omega)]; exact f.runs
      · rw [ho (by omega)]; exact f.out
  · -- the copy ends
    rw [show s.pc t = .copying by rw [hpc, hn]; rfl]
    dsimp only
    right; right
    rw [poss, coll, hn]
    have hg : gotHook t (t :: h) = s.hook := by
      show (if t = t ∧ made h t = 1 then !someFrom h 5 else gotHook t h) = _
      rw [if_pos ⟨rfl, hn⟩]
      cases hx : someFrom h 5 with
      | true =>
        obtain ⟨v, hv⟩ := (someFrom_iff h 5 (by omega)).1 hx
        cases hs : s.hook with
        | false => rfl
        | true => have := f.hook.1 hs v; omega
      | false =>
        refine (f.hook.2 fun v => ?_).symm
        by_contra hv
        have := (someFrom_iff h 5 (by omega)).2 ⟨v, by omega⟩
        rw [hx] at this; cases this
    refine ⟨rfl, rfl, _, rfl, ?_⟩
    refine ⟨f.ub, ftFollows_pc f t (.copied s.hook) (by rw [hn, hg]; rfl), fun v => ?_, ?_, ?_, ?_, ?_, ?_, ?_, ?_, ?_, ?_⟩
    · exact (at_cons (P := fun n => n ≤ 10) (by omega) v).2 (f.le v)
    · exact f.hook.trans (forall_congr' fun v => (at_cons (P := fun n => n < 5) (by omega) v).symm)
    · exact f.writing.trans (exists_congr fun v => (at_cons (P := fun n => n = 4) (by omega) v).symm)
    · exact fun v => (f.owner v).trans (at_cons (P := fun n => 3 ≤ n ∧ n ≤ 5) (by omega) v).symm
    · refine f.copiers.drop (t := t) hn (fun v => ?_)
      by_cases hv : v = t
      · subst hv; rw [made_self]; exact ⟨fun hx => by omega, fun hx => absurd rfl hx.1⟩
      · rw [made_other h hv]; exact ⟨fun hx => ⟨hv, hx⟩, fun hx => hx.2⟩
    · exact f.counter.congr (fun v => (at_cons (P := fun n => 7 ≤ n) (by omega) v).symm)
    · rw [hk (by omega)]; exact f.first
    · rw [hk (by omega)]
      exact fun hx => f.kept (hx.imp fun v => (at_cons (P := fun n => 8 ≤ n) (by omega) v).1)
    · rw [hr (by omega)]; exact f.runs
    · rw [ho (by omega)]; exact f.out
  · -- the mutex is taken
    rw [show s.pc t = .copied (gotHook t h) by rw [hpc, hn]; rfl]
    dsimp only
    rw [poss, coll, hn]
    have own : s.owner = none ↔ (someAt h 3 || someAt h 4 || someAt h 5) = false := by
      constructor
      · intro hx
        have key : ∀ n, 3 ≤ n → n ≤ 5 → someAt h n = false := by
          intro n n1 n2
          cases hy : someAt h n with
          | false => rfl
          | true =>
            obtain ⟨v, hv⟩ := (someAt_iff h n (by omega)).1 hy
            have := (f.owner v).2 (by omega)
            rw [hx] at this; cases this
        rw [key 3 (by omega) (by omega), key 4 (by omega) (by omega), key 5 (by omega) (by omega)]; rfl
      · intro hx
        cases hy : s.owner with
        | none => rfl
        | some v =>
          exfalso
          obtain ⟨n1, n2⟩ := (f.owner v).1 hy
          rw [Bool.or_eq_false_iff, Bool.or_eq_false_iff] at hx
          have key : ∀ n, 0 < n → someAt h n = false → made h v ≠ n := by
            intro n h0 hz he
            rw [(someAt_iff h n h0).2 ⟨v, he⟩] at hz; cases hz
          have a := key 3 (by omega) hx.1.1
          have b := key 4 (by omega) hx.1.2
          have c := key 5 (by omega) hx.2
          omega
    by_cases hw : s.owner = none
    · right; right
      rw [if_pos hw, own.1 hw]
      refine ⟨rfl, rfl, _, rfl, ?_⟩
      refine ⟨f.ub, ftFollows_pc f t _ (by rw [hn, gotHook_not (by omega)]; rfl), fun v => ?_, ?_, ?_, ?_, ?_, ?_, ?_, ?_, ?_, ?_⟩
      · exact (at_cons (P := fun n => n ≤ 10) (by omega) v).2 (f.le v)
      · exact f.hook.trans (forall_congr' fun v => (at_cons (P := fun n => n < 5) (by omega) v).symm)
      · exact f.writing.trans (exists_congr fun v => (at_cons (P := fun n => n = 4) (by omega) v).symm)
      · intro v
        show some t = some v ↔ _
        by_cases hv : v = t
        · subst hv; rw [made_self]; exact ⟨fun _ => by omega, fun _ => rfl⟩
        · rw [made_other h hv]
          constructor
          · intro hx; exact absurd (Option.some.inj hx).symm hv
          · intro hx
            have := (f.owner v).2 hx
            rw [hw] at this; cases this
      · exact f.copiers.congr (fun v => (at_cons (P := fun n => n = 1) (by omega) v).symm)
      · exact f.counter.congr (fun v => (at_cons (P := fun n => 7 ≤ n) (by omega) v).symm)
      · rw [hk (by omega)]; exact f.first
      · rw [hk (by omega)]
        exact fun hx => f.kept (hx.imp fun v => (at_cons (P := fun n => 8 ≤ n) (by omega) v).1)
      · rw [hr (by omega)]; exact f.runs
      · rw [ho (by omega)]; exact f.out
    · left
      have : (someAt h 3 || someAt h 4 || someAt h 5) = true := by
        cases hx : (someAt h 3 || someAt h 4 || someAt h 5) with
        | true => rfl
        | false => exact absurd (own.2 hx) hw
      rw [if_neg hw, this]
      exact ⟨rfl, rfl⟩
  · -- the assignment begins
    rw [show s.pc t = .locked (gotHook t h) by rw [hpc, hn]; rfl]
    dsimp only
    right
    rw [poss, coll, hn]
    by_cases hw : 0 < s.copiers
    · left
      rw [if_pos hw, (someAt_iff h 1 (by omega)).2 (f.copiers.pos.1 hw)]
      exact ⟨rfl, rfl, rfl, hr (by omega), ho (by omega)⟩
    · right
      have h1 : someAt h 1 = false := by
        cases hx : someAt h 1 with
        | false => rfl
        | true => exact absurd (f.copiers.pos.2 ((someAt_iff h 1 (by omega)).1 hx)) hw
      rw [if_neg hw, h1]
      refine ⟨rfl, rfl, _, rfl, ?_⟩
      refine ⟨f.ub, ftFollows_pc f t _ (by rw [hn, gotHook_not (by omega)]; rfl), fun v => ?_, ?_, ?_, ?_, ?_, ?_, ?_, ?_, ?_, ?_⟩
      · exact (at_cons (P := fun n => n ≤ 10) (by omega) v).2 (f.le v)
      · exact f.hook.trans (forall_congr' fun v => (at_cons (P := fun n => n < 5) (by omega) v).symm)
      · exact ⟨fun _ => ⟨t, by rw [made_self]; omega⟩, fun _ => rfl⟩
      · exact fun v => (f.owner v).trans (at_cons (P := fun n => 3 ≤ n ∧ n ≤ 5) (by omega) v).symm
      · exact f.copiers.congr (fun v => (at_cons (P := fun n => n = 1) (by omega) v).symm)
      · exact f.counter.congr (fun v => (at_cons (P := fun n => 7 ≤ n) (by omega) v).symm)
      · rw [hk (by omega)]; exact f.first
      · rw [hk (by omega)]
        exact fun hx => f.kept (hx.imp fun v => (at_cons (P := fun n => 8 ≤ n) (by omega) v).1)
      · rw [hr (by omega)]; exact f.runs
      · rw [ho (by omega)]; exact f.out
  · -- the assignment ends
    rw [show s.pc t = .writing (gotHook t h) by rw [hpc, hn]; rfl]
    dsimp only
    right; right
    rw [poss, coll, hn]
    refine ⟨rfl, rfl, _, rfl, ?_⟩
    refine ⟨f.ub, ftFollows_pc f t _ (by rw [hn, gotHook_not (by omega)]; rfl), fun v => ?_, ?_, ?_, ?_, ?_, ?_, ?_, ?_, ?_, ?_⟩
    · exact (at_cons (P := fun n => n ≤ 10) (by omega) v).2 (f.le v)
    · constructor
      · intro hx; cases hx
      · intro hx; have := hx t; rw [made_self] at this; omega
    · constructor
      · intro hx; cases hx
      · rintro ⟨v, hv⟩
        exfalso
        by_cases he : v = t
        · subst he; rw [made_self] at hv; omega
        · rw [made_other h he] at hv
          have a := (f.owner v).2 (by omega)
          have b := (f.owner t).2 (by omega)
          rw [a] at b; exact he (Option.some.inj b)
    · exact fun v => (f.owner v).trans (at_cons (P := fun n => 3 ≤ n ∧ n ≤ 5) (by omega) v).symm
    · exact f.copiers.congr (fun v => (at_cons (P := fun n => n = 1) (by omega) v).symm)
    · exact f.counter.congr (fun v => (at_cons (P := fun n => 7 ≤ n) (by omega) v).symm)
    · rw [hk (by omega)]; exact f.first
    · rw [hk (by omega)]
      exact fun hx => f.kept (hx.imp fun v => (at_cons (P := fun n => 8 ≤ n) (by omega) v).1)
    · rw [hr (by omega)]; exact f.runs
    · rw [ho (by omega)]; exact f.out
  · -- the mutex is given back
    rw [show s.pc t = .written (gotHook t h) by rw [hpc, hn]; rfl]
    dsimp only
    right; right
    rw [poss, coll, hn]
    refine ⟨rfl, rfl, _, rfl, ?_⟩
    refine ⟨f.ub, ftFollows_pc f t _ (by rw [hn, gotHook_not (by omega)]; rfl), fun v => ?_, ?_, ?_, ?_, ?_, ?_, ?_, ?_, ?_, ?_⟩
    · exact (at_cons (P := fun n => n ≤ 10) (by omega) v).2 (f.le v)
    · exact f.hook.trans (forall_congr' fun v => (at_cons (P := fun n => n < 5) (by omega) v).symm)
    · exact f.writing.trans (exists_congr fun v => (at_cons (P := fun n => n = 4) (by omega) v).symm)
    · intro v
      constructor
      · intro hx; cases hx
      · intro hx
        exfalso
        by_cases he : v = t
        · subst he; rw [made_self] at hx; omega
        · rw [made_other h he] at hx
          have a := (f.owner v).2 hx
          have b := (f.owner t).2 (by omega)
          rw [a] at b; exact he (Option.some.inj b)
    · exact f.copiers.congr (fun v => (at_cons (P := fun n => n = 1) (by omega) v).symm)
    · exact f.counter.congr (fun v => (at_cons (P := fun n => 7 ≤ n) (by omega) v).symm)
    · rw [hk (by omega)]; exact f.first
    · rw [hk (by omega)]
      exact fun hx => f.kept (hx.imp fun v => (at_cons (P := fun n => 8 ≤ n) (by omega) v).1)
    · rw [hr (by omega)]; exact f.runs
    · rw [ho (by omega)]; exact f.out
  · -- the event is counted
    rw [show s.pc t = .unlocked (gotHook t h) by rw [hpc, hn]; rfl]
    dsimp only
    right; right
    rw [poss, coll, hn]
    refine ⟨rfl, rfl, _, rfl, ?_⟩
    refine ⟨f.ub, ftFollows_pc f t _ (by rw [hn, gotHook_not (by omega)]; rfl), fun v => ?_, ?_, ?_, ?_, ?_, ?_, ?_, ?_, ?_, ?_⟩
    · exact (at_cons (P := fun n => n ≤ 10) (by omega) v).2 (f.le v)
    · exact f.hook.trans (forall_congr' fun v => (at_cons (P := fun n => n < 5) (by omega) v).symm)
    · exact f.writing.trans (exists_congr fun v => (at_cons (P := fun n => n = 4) (by omega) v).symm)
    · exact fun v => (f.owner v).trans (at_cons (P := fun n => 3 ≤ n ∧ n ≤ 5) (by omega) v).symm
    · exact f.copiers.congr (fun v => (at_cons (P := fun n => n = 1) (by omega) v).symm)
    · refine f.counter.add (t := t) (by rw [hn]; omega) (fun v => ?_)
      by_cases hv : v = t
      · subst hv; rw [made_self]; exact ⟨fun _ => Or.inl rfl, fun _ => by omega⟩
      · rw [made_other h hv]; exact ⟨Or.inr, fun x => x.resolve_left hv⟩
    · rw [hk (by omega)]; exact f.first
    · rw [hk (by omega)]
      exact fun hx => f.kept (hx.imp fun v => (at_cons (P := fun n => 8 ≤ n) (by omega) v).1)
    · rw [hr (by omega)]; exact f.runs
    · rw [ho (by omega)]; exact f.out
  · -- the first stack trace
    rw [show s.pc t = .counted (gotHook t h) by rw [hpc, hn]; rfl]
    dsimp only
    right; right
    rw [poss, coll, hn]
    have hkt : keptTrace (t :: h) = some ((keptTrace h).getD t) := by
      show (match keptTrace h with | some r => some r | none => if made h t = 7 then some t else none) = _
      rw [if_pos hn]
      cases keptTrace h <;> rfl
    refine ⟨rfl, rfl, _, rfl, ?_⟩
    refine ⟨f.ub, ftFollows_pc f t _ (by rw [hn, gotHook_not (by omega)]; rfl), fun v => ?_, ?_, ?_, ?_, ?_, ?_, ?_, ?_, ?_, ?_⟩
    · exact (at_cons (P := fun n => n ≤ 10) (by omega) v).2 (f.le v)
    · exact f.hook.trans (forall_congr' fun v => (at_cons (P := fun n => n < 5) (by omega) v).symm)
    · exact f.writing.trans (exists_congr fun v => (at_cons (P := fun n => n = 4) (by omega) v).symm)
    · exact fun v => (f.owner v).trans (at_cons (P := fun n => 3 ≤ n ∧ n ≤ 5) (by omega) v).symm
    · exact f.copiers.congr (fun v => (at_cons (P := fun n => n = 1) (by omega) v).symm)
    · exact f.counter.congr (fun v => (at_cons (P := fun n => 7 ≤ n) (by omega) v).symm)
    · show some (s.first.getD (trace t)) = _
      rw [hkt, f.first]
      cases keptTrace h <;> rfl
    · rw [hkt]; exact fun _ => rfl
    · rw [hr (by omega)]; exact f.runs
    · rw [ho (by omega)]; exact f.out
  · -- the hook
    rw [show s.pc t = .traced (gotHook t h) by rw [hpc, hn]; rfl]
    dsimp only
    right; right
    rw [poss, coll, hn]
    refine ⟨rfl, rfl, _, rfl, ?_⟩
    refine ⟨f.ub, ftFollows_pc f t _ (by rw [hn]; rfl), fun v => ?_, ?_, ?_, ?_, ?_, ?_, ?_, ?_, ?_, ?_⟩
    · exact (at_cons (P := fun n => n ≤ 10) (by omega) v).2 (f.le v)
    · exact f.hook.trans (forall_congr' fun v => (at_cons (P := fun n => n < 5) (by omega) v).symm)
    · exact f.writing.trans (exists_congr fun v => (at_cons (P := fun n => n = 4) (by omega) v).symm)
    · exact fun v => (f.owner v).trans (at_cons (P := fun n => 3 ≤ n ∧ n ≤ 5) (by omega) v).symm
    · exact f.copiers.congr (fun v => (at_cons (P := fun n => n = 1) (by omega) v).symm)
    · exact f.counter.congr (fun v => (at_cons (P := fun n => 7 ≤ n) (by omega) v).symm)
    · rw [hk (by omega)]; exact f.first
    · rw [hk (by omega)]
      exact fun hx => f.kept (hx.imp fun v => (at_cons (P := fun n => 8 ≤ n) (by omega) v).1)
    · show (if gotHook t h = true then s.runs ++ [t] else s.runs) = (if made h t = 8 ∧ gotHook t h = true then hookRuns h ++ [t] else hookRuns h)
      rw [f.runs]
      by_cases hg : gotHook t h = true
      · rw [if_pos hg, if_pos ⟨hn, hg⟩]
      · rw [if_neg hg, if_neg (fun hh => hg hh.2)]
    · rw [ho (by omega)]; exact f.out
  · -- the message
    rw [show s.pc t = .hooked by rw [hpc, hn]; rfl]
    dsimp only
    right; right
    rw [poss, coll, hn]
    refine ⟨rfl, rfl, _, rfl, ?_⟩
    refine ⟨f.ub, ftFollows_pc f t _ (by rw [hn]; rfl), fun v => ?_, ?_, ?_, ?_, ?_, ?_, ?_, ?_, ?_, ?_⟩
    · exact (at_cons (P := fun n => n ≤ 10) (by omega) v).2 (f.le v)
    · exact f.hook.trans (forall_congr' fun v => (at_cons (P := fun n => n < 5) (by omega) v).symm)
    · exact f.writing.trans (exists_congr fun v => (at_cons (P := fun n => n = 4) (by omega) v).symm)
    · exact fun v => (f.owner v).trans (at_cons (P := fun n => 3 ≤ n ∧ n ≤ 5) (by omega) v).symm
    · exact f.copiers.congr (fun v => (at_cons (P := fun n => n = 1) (by omega) v).symm)
    · exact f.counter.congr (fun v => (at_cons (P := fun n => 7 ≤ n) (by omega) v).symm)
    · rw [hk (by omega)]; exact f.first
    · rw [hk (by omega)]
      exact fun hx => f.kept (hx.imp fun v => (at_cons (P := fun n => 8 ≤ n) (by omega) v).1)
    · rw [hr (by omega)]; exact f.runs
    · show s.out ++ [(t, text t ++ trace t ++ if 1 < s.counter then recursiveText (s.first.getD []) else [])] =
        (if made h t = 9 then reports text trace h ++ [(t, if company h t then
          (match keptTrace h with | some r => warnedReport text trace t r | none => []) else plainReport text trace t)]
         else reports text trace h)
      rw [if_pos hn, f.out, f.first]
      have two := f.counter.two (t := t) (by omega)
      cases hco : company h t with
      | true =>
        rw [if_pos (two.2 ((company_iff h t).1 hco)), if_pos rfl]
        have hkk := f.kept ⟨t, by omega⟩
        cases hkt : keptTrace h with
        | none => rw [hkt] at hkk; cases hkk
        | some r => dsimp only; rw [warned_eq]; rfl
      | false =>
        rw [if_neg (fun hx => by rw [(company_iff h t).2 (two.1 hx)] at hco; cases hco), if_neg (by simp), List.append_nil]
        rfl
  · -- over
    left
    rw [hpc, hn, poss, hn]
    exact ⟨rfl, rfl⟩

theorem ftRun_snoc {text trace : Nat → Str} {s : FtState} (ts : List Nat) (t : Nat) :
    ftRun text trace s (ts ++ [t]) = (ftRun text trace s ts).bind (ftStep text trace · t) := by
  induction ts generalizing s with
  | nil =>
    show (ftStep text trace s t).bind (fun x => some x) = ftStep text trace s t
    cases ftStep text trace s t <;> rfl
  | cons u ts ih =>
    show (ftStep text trace s u).bind (ftRun text trace · (ts ++ [t])) = ((ftStep text trace s u).bind _).bind _
    rw [Option.bind_assoc]
    congr 1
    funext x
    exact ih

theorem ftFollows_run (text trace : Nat → Str) (ts : List Nat) :
    (possible ts.reverse = false ∧ ftRun text trace FtState.start ts = none) ∨
    (possible ts.reverse = true ∧ ∃ s, ftRun text trace FtState.start ts = some s ∧ s.ub = collision ts.reverse ∧
      s.runs = hookRuns ts.reverse ∧ s.out = reports text trace ts.reverse ∧
      (collision ts.reverse = false → FtFollows text trace ts.reverse s)) := by
  induction ts using List.reverseRecOn with
  | nil => exact Or.inr ⟨rfl, _, rfl, rfl, rfl, rfl, fun _ => ftFollows_start text trace⟩
  | append_singleton ts t ih =>
    rw [List.reverse_append, ftRun_snoc]
    show (possible (t :: ts.reverse) = false ∧ _) ∨ (possible (t :: ts.reverse) = true ∧ ∃ s, _ ∧ s.ub = collision (t :: ts.reverse) ∧
      s.runs = hookRuns (t :: ts.reverse) ∧ s.out = reports text trace (t :: ts.reverse) ∧
      (collision (t :: ts.reverse) = false → FtFollows text trace (t :: ts.reverse) s))
    rcases ih with ⟨hp, hn⟩ | ⟨hp, s, hs, hu, hr, ho, hf⟩
    · left
      rw [hn]
      refine ⟨?_, rfl⟩
      show (possible ts.reverse && _ && _ && _) = false
      rw [hp]; rfl
    · rw [hs]
      show (_ ∧ ftStep text trace s t = none) ∨ (_ ∧ ∃ s', ftStep text trace s t = some s' ∧ _)
      cases hc : collision ts.reverse with
      | true =>
        left
        constructor
        · show (possible ts.reverse && !collision ts.reverse && _ && _) = false
          rw [hp, hc]; rfl
        · unfold ftStep
          rw [hu, hc]; rfl
      | false =>
        rcases ftFollows_step (hf hc) hp hc t with ⟨a, b⟩ | ⟨a, b, c, d, e⟩ | ⟨a, b, s', c, d⟩
        · exact Or.inl ⟨a, b⟩
        · right
          refine ⟨a, _, c, b.symm, ?_, ?_, ?_⟩
          · rw [d]; exact hr
          · rw [e]; exact ho
          · intro hx; rw [b] at hx; cases hx
        · exact Or.inr ⟨a, s', c, by rw [b]; exact d.ub, d.runs, d.out, fun _ => d⟩

/-! ### C74 -/

/-- C74, exactly: for every schedule of any number of threads, whether it is possible, whether it is undefined behaviour, which threads run
the hook and in which order, and which messages are passed on, in which order and with which text. -/
theorem C74_exact (text trace : Nat → Str) (ts : List Nat) :
    ((ftRun text trace FtState.start ts).isSome = possible ts.reverse) ∧
    ∀ s, ftRun text trace FtState.start ts = some s →
      s.ub = collision ts.reverse ∧ s.runs = hookRuns ts.reverse ∧ s.out = reports text trace ts.reverse := by
  rcases ftFollows_run text trace ts with ⟨hp, hn⟩ | ⟨hp, s, hs, hu, hr, ho, _⟩
  · rw [hn, hp]
    exact ⟨rfl, fun s hs => (nomatch hs)⟩
  · rw [hs, hp]
    refine ⟨rfl, fun s' hs' => ?_⟩
    cases hs'
    exact ⟨hu, hr, ho⟩

/-- C74: in particular a message carries the warning about a recursive crash exactly if another thread had counted its event by then. -/
theorem C74_blame_iff (text trace : Nat → Str) (ts : List Nat) (t : Nat) (s s' : FtState)
    (h : ftRun text trace FtState.start ts = some s) (h' : ftStep text trace s t = some s') (hn : made ts.reverse t = 9) :
    s'.out = s.out ++ [(t, plainReport text trace t)] ↔ ∀ v, v ≠ t → made ts.reverse v < 7 := by
  have hrun : ftRun text trace FtState.start (ts ++ [t]) = some s' := by rw [ftRun_snoc, h]; exact h'
  have e1 := ((C74_exact text trace ts).2 s h).2.2
  have e2 := ((C74_exact text trace (ts ++ [t])).2 s' hrun).2.2
  rw [List.reverse_append] at e2
  have e3 : s'.out = (if made ts.reverse t = 9 then reports text trace ts.reverse ++ [(t, if company ts.reverse t then
      (match keptTrace ts.reverse with | some r => warnedReport text trace t r | none => []) else plainReport text trace t)]
    else reports text trace ts.reverse) := e2
  rw [if_pos hn, ← e1] at e3
  have hkept : (keptTrace ts.reverse).isSome = true := by
    rcases ftFollows_run text trace ts with ⟨_, hx⟩ | ⟨_, s0, hs0, hu, _, _, hf⟩
    · rw [h] at hx; cases hx
    · rw [h] at hs0
      cases hs0
      refine (hf ?_).kept ⟨t, by omega⟩
      rw [← hu]
      cases hub : s.ub with
      | false => rfl
      | true => unfold ftStep at h'; rw [hub] at h'; cases h'
  rw [e3]
  constructor
  · intro he v hv
    have hl := List.append_cancel_left he
    by_contra hx
    have hco := (company_iff ts.reverse t).2 ⟨v, hv, by omega⟩
    rw [hco, if_pos rfl] at hl
    cases hk : keptTrace ts.reverse with
    | none => rw [hk] at hkept; cases hkept
    | some r =>
      rw [hk] at hl
      simp only [List.cons.injEq, Prod.mk.injEq, and_true, true_and] at hl
      exact warned_ne_plain text trace t r hl
  · intro hx
    have hco : company ts.reverse t = false := by
      cases hc : company ts.reverse t with
      | false => rfl
      | true => obtain ⟨v, hv, h7⟩ := (company_iff ts.reverse t).1 hc; have := hx v hv; omega
    rw [hco, if_neg (by simp)]

/-- Two threads whose events overlap but do not collide: thread 0 runs the hook, both messages carry the warning. -/
example : let h := [0, 0, 0, 0, 0, 0, 1, 1, 1, 1, 1, 1, 1, 0, 0, 0, 0, 1, 1, 1].reverse
    possible h = true ∧ collision h = false ∧ hookRuns h = [0] ∧
    reports (fun _ => []) (fun t => if t = 0 then "a".toList else "b".toList) h =
      [(0, warnedReport (fun _ => []) (fun t => if t = 0 then "a".toList else "b".toList) 0 0),
       (1, warnedReport (fun _ => []) (fun t => if t = 0 then "a".toList else "b".toList) 1 0)] := by
  decide +kernel

end G3.Props
