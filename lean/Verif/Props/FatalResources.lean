import Verif.Spec.FatalResources
import Verif.Props.Resources
/- C108: fatal statements without memory; C109: calls through a handle without memory. -/
namespace G3.Props
open G3 G3.Spec

/-! ### Pieces -/

theorem fm_mem (σ : Supply) (s : FmState) :
    (σ.ok s.sc.req = true ∧ Fm.mem σ s = (.ok, FmState.after s (s.sc.req + 1))) ∨ (σ.ok s.sc.req = false ∧ Fm.mem σ s = (.threw .badAlloc, FmState.after s (s.sc.req + 1))) := by
  unfold Fm.mem Fm.lift
  rcases r_mem σ s.sc with ⟨a, b⟩ | ⟨a, b⟩
  · exact Or.inl ⟨a, by rw [b]; rfl⟩
  · exact Or.inr ⟨a, by rw [b]; rfl⟩

theorem fseq_ok {σ : Supply} {s s' : FmState} {x y : Fm} (h : x σ s = (.ok, s')) : (x ⨠ y) σ s = y σ s' := by unfold Fm.seq; rw [h]
theorem fseq_threw {σ : Supply} {s s' : FmState} {x y : Fm} {e : RErr} (h : x σ s = (.threw e, s')) : (x ⨠ y) σ s = (.threw e, s') := by unfold Fm.seq; rw [h]
theorem fseq_mod {σ : Supply} {s : FmState} {f : FmState → FmState} {y : Fm} : (Fm.modify f ⨠ y) σ s = y σ (f s) := rfl
theorem fseq_not {σ : Supply} {s : FmState} {x y : Fm} (h : (x σ s).1 = .terminated ∨ ∃ e, (x σ s).1 = .threw e) : ((x ⨠ y) σ s).1 = (x σ s).1 := by
  unfold Fm.seq
  split
  · next e => rw [e] at h; simp at h
  · rfl

/-- A request that is followed by more. -/
theorem mem_seq (σ : Supply) (s : FmState) (y : Fm) :
    (σ.ok s.sc.req = true ∧ (Fm.mem ⨠ y) σ s = y σ (FmState.after s (s.sc.req + 1))) ∨
    (σ.ok s.sc.req = false ∧ (Fm.mem ⨠ y) σ s = (.threw .badAlloc, FmState.after s (s.sc.req + 1))) := by
  rcases fm_mem σ s with ⟨a, b⟩ | ⟨a, b⟩
  · exact Or.inl ⟨a, fseq_ok b⟩
  · exact Or.inr ⟨a, fseq_threw b⟩

theorem fnoexcept_dead {σ : Supply} {s : FmState} {x : Fm} (h : (x σ s).1 = .terminated ∨ ∃ e, (x σ s).1 = .threw e) : (x.noexcept σ s).1 = .terminated := by
  unfold Fm.noexcept
  split
  · rfl
  · next hn =>
    rcases h with h | ⟨e, h⟩
    · exact h
    · exact (hn e (x σ s).2 (Prod.ext h rfl)).elim

/-! ### The worker -/

/-- A request in a stretch fails, or all succeed. -/
theorem stretch (σ : Supply) (k m : Nat) : (∀ n, k ≤ n → n < k + m → σ.ok n = true) ∨ (∃ n, k ≤ n ∧ n < k + m ∧ σ.ok n = false) := by
  by_cases h : ∃ n, k ≤ n ∧ n < k + m ∧ σ.ok n = false
  · exact Or.inr h
  · refine Or.inl fun n h1 h2 => ?_
    cases e : σ.ok n
    · exact absurd ⟨n, h1, h2, e⟩ h
    · rfl

theorem lift_bad {σ : Supply} {s : FmState} {x : Sc} (h : (x σ s.sc).1 ≠ .ok) : (Fm.lift x σ s).1 = .terminated ∨ ∃ e, (Fm.lift x σ s).1 = .threw e := by
  unfold Fm.lift
  split
  · next e => rw [e] at h; exact absurd rfl h
  · exact Or.inr ⟨_, rfl⟩
  · exact Or.inl rfl

theorem lift_ok {σ : Supply} {s : FmState} {x : Sc} {c : ScState} (h : x σ s.sc = (.ok, c)) : Fm.lift x σ s = (.ok, { s with sc := c }) := by
  unfold Fm.lift; rw [h]

/-- What the worker does with a fatal message, if it has memory. -/
theorem bg_fatal (σ : Supply) (s : FmState) (d : Deadly) (t : Str) (hs : s.sc.live = s.sc.att) :
    ((∀ n, s.sc.req ≤ n → n < s.sc.req + (3 + 4 * s.sc.att.length) → σ.ok n = true) ∧
      ∃ s', (bgFatalR d t).noexcept σ s = (.ended d.signal, s') ∧ s'.hooked = s.hooked ∧
        s'.sc.got = s.sc.got ++ s.sc.att.map (fun i => (i, t ++ "\nExiting after fatal event  (".toList ++ d.level ++ "). Fatal type:  ".toList ++ d.reason ++ "\nLog content flushed successfully to sink\n\n".toList)) ∧
        s'.cerr = s.cerr ++ [d.fmt (t ++ "\nExiting after fatal event  (".toList ++ d.level ++ "). Fatal type:  ".toList ++ d.reason ++ "\nLog content flushed successfully to sink\n\n".toList)]) ∨
    ((∃ n, s.sc.req ≤ n ∧ n < s.sc.req + (3 + 4 * s.sc.att.length) ∧ σ.ok n = false) ∧ ((bgFatalR d t).noexcept σ s).1 = .terminated) := by
  have ht : t ++ "\nExiting after fatal event  (".toList ++ d.level ++ "). ".toList ++ "Fatal type: ".toList ++ " ".toList ++ d.reason ++ "\nLog content flushed successfully to sink\n\n".toList =
      t ++ "\nExiting after fatal event  (".toList ++ d.level ++ "). Fatal type:  ".toList ++ d.reason ++ "\nLog content flushed successfully to sink\n\n".toList := by
    have : "). Fatal type:  ".toList = "). ".toList ++ "Fatal type: ".toList ++ " ".toList := by decide +kernel
    rw [this]
    simp only [List.append_assoc]
  unfold bgFatalR
  rw [ht]
  generalize t ++ "\nExiting after fatal event  (".toList ++ d.level ++ "). Fatal type:  ".toList ++ d.reason ++ "\nLog content flushed successfully to sink\n\n".toList = T
  obtain ⟨sc, ini, hk, ct, fi, ho, ce, ca, fu⟩ := s
  simp only at hs ⊢
  have dead : ∀ (x : Fm) (s : FmState) (n : Nat), sc.req ≤ n → n < sc.req + (3 + 4 * sc.att.length) → σ.ok n = false → ((x σ s).1 = .terminated ∨ ∃ e, (x σ s).1 = .threw e) →
      (∃ n, sc.req ≤ n ∧ n < sc.req + (3 + 4 * sc.att.length) ∧ σ.ok n = false) ∧ (x.noexcept σ s).1 = .terminated := fun x s n h1 h2 h3 h4 => ⟨⟨n, h1, h2, h3⟩, fnoexcept_dead h4⟩
  rcases stretch σ sc.req (3 + 4 * sc.att.length) with hall | hex
  · left
    refine ⟨hall, ?_⟩
    have e0 := hall sc.req (by omega) (by omega)
    have e1 := hall (sc.req + 1) (by omega) (by omega)
    have e2 := hall (sc.req + 2) (by omega) (by omega)
    unfold Fm.noexcept
    rw [fseq_mod]
    rcases mem_seq σ ⟨sc, false, hk, ct, fi, ho, ce, ca, fu⟩ _ with ⟨_, b⟩ | ⟨a, _⟩
    case inr => rw [show (FmState.mk sc false hk ct fi ho ce ca fu).sc.req = sc.req from rfl, e0] at a; cases a
    rw [b]
    rcases mem_seq σ (FmState.after ⟨sc, false, hk, ct, fi, ho, ce, ca, fu⟩ (sc.req + 1)) _ with ⟨_, b⟩ | ⟨a, _⟩
    case inr => change σ.ok (sc.req + 1) = false at a; rw [e1] at a; cases a
    rw [b]
    rcases mem_seq σ (FmState.after ⟨sc, false, hk, ct, fi, ho, ce, ca, fu⟩ (sc.req + 2)) _ with ⟨_, b⟩ | ⟨a, _⟩
    case inr => change σ.ok (sc.req + 2) = false at a; rw [e2] at a; cases a
    erw [b]
    rw [fseq_mod]
    rcases send_all σ T sc.att { sc with req := sc.req + 3 } with ⟨_, q⟩ | ⟨⟨n, h1, h2, h3⟩, _⟩
    case inr =>
      change sc.req + 3 ≤ n at h1
      change n < sc.req + 3 + 3 * sc.att.length at h2
      rw [hall n (by omega) (by omega)] at h3; cases h3
    rw [fseq_ok (x := fun σ s => Fm.lift (sendAllR T s.sc.att) σ s) (lift_ok q)]
    have c := clear_all σ sc.att { sc with req := sc.req + 3 + 3 * sc.att.length, got := sc.got ++ sc.att.map fun i => (i, T) } rfl hs (by
      intro k hk
      exact hall _ (by show sc.req ≤ sc.req + 3 + 3 * sc.att.length + k; omega) (by show sc.req + 3 + 3 * sc.att.length + k < _; omega))
    rw [fseq_ok (x := fun σ s => Fm.lift (clearSinks s.sc.att) σ s) (lift_ok c)]
    exact ⟨_, rfl, rfl, rfl, rfl⟩
  · right
    obtain ⟨n, h1, h2, h3⟩ := hex
    refine dead _ _ n h1 h2 h3 ?_
    rw [fseq_mod]
    rcases mem_seq σ ⟨sc, false, hk, ct, fi, ho, ce, ca, fu⟩ _ with ⟨e0, b⟩ | ⟨_, b⟩
    case inr => rw [b]; exact Or.inr ⟨_, rfl⟩
    rw [b]
    rcases mem_seq σ (FmState.after ⟨sc, false, hk, ct, fi, ho, ce, ca, fu⟩ (sc.req + 1)) _ with ⟨e1, b⟩ | ⟨_, b⟩
    case inr => rw [b]; exact Or.inr ⟨_, rfl⟩
    rw [b]
    rcases mem_seq σ (FmState.after ⟨sc, false, hk, ct, fi, ho, ce, ca, fu⟩ (sc.req + 2)) _ with ⟨e2, b⟩ | ⟨_, b⟩
    case inr => erw [b]; exact Or.inr ⟨_, rfl⟩
    erw [b]
    rw [fseq_mod]
    change σ.ok sc.req = true at e0
    change σ.ok (sc.req + 1) = true at e1
    change σ.ok (sc.req + 2) = true at e2
    rcases send_all σ T sc.att { sc with req := sc.req + 3 } with ⟨h5, q⟩ | ⟨_, q⟩
    case inr =>
      have := lift_bad (s := ⟨{ sc with req := sc.req + 3 }, false, hk, ct, fi, ho, ce ++ [d.fmt T], ca, fu⟩) q
      rw [fseq_not (x := fun σ s => Fm.lift (sendAllR T s.sc.att) σ s) this]
      exact this
    rw [fseq_ok (x := fun σ s => Fm.lift (sendAllR T s.sc.att) σ s) (lift_ok q)]
    have hn : sc.req + 3 + 3 * sc.att.length ≤ n := by
      refine Nat.le_of_not_lt fun c => ?_
      by_cases a0 : n = sc.req; · rw [a0, e0] at h3; cases h3
      by_cases a1 : n = sc.req + 1; · rw [a1, e1] at h3; cases h3
      by_cases a2 : n = sc.req + 2; · rw [a2, e2] at h3; cases h3
      rw [h5 n (by show sc.req + 3 ≤ n; omega) c] at h3; cases h3
    have c := clear_dead σ sc.att { sc with req := sc.req + 3 + 3 * sc.att.length, got := sc.got ++ sc.att.map fun i => (i, T) }
      ⟨n - (sc.req + 3 + 3 * sc.att.length), by omega, by
        show σ.ok (sc.req + 3 + 3 * sc.att.length + (n - (sc.req + 3 + 3 * sc.att.length))) = false
        rw [show sc.req + 3 + 3 * sc.att.length + (n - (sc.req + 3 + 3 * sc.att.length)) = n by omega]; exact h3⟩
    have := lift_bad (σ := σ) (x := clearSinks sc.att)
      (s := ⟨{ sc with req := sc.req + 3 + 3 * sc.att.length, got := sc.got ++ sc.att.map fun i => (i, T) }, false, hk, ct, fi, ho, ce ++ [d.fmt T], ca, fu⟩) (by rw [c]; simp)
    rw [fseq_not (x := fun σ s => Fm.lift (clearSinks s.sc.att) σ s) this]
    exact this

/-! ### The calling thread -/

theorem loss_deadly (σ : Supply) : ∀ (m k : Nat), ((∀ n, k ≤ n → n < k + m → σ.ok n = true) ∧ firstLoss σ k (List.replicate m .deadly) = none) ∨
    ((∃ n, k ≤ n ∧ n < k + m ∧ σ.ok n = false) ∧ ∃ j, firstLoss σ k (List.replicate m .deadly) = some (j, .deadly))
  | 0, k => Or.inl ⟨fun n h1 h2 => by omega, rfl⟩
  | m + 1, k => by
    rw [List.replicate_succ]
    show _ ∧ (if σ.ok k = true then firstLoss σ (k + 1) _ else some (k, Loss.deadly)) = none ∨ _ ∧ ∃ j, (if σ.ok k = true then firstLoss σ (k + 1) _ else some (k, Loss.deadly)) = some (j, .deadly)
    cases e : σ.ok k
    · exact Or.inr ⟨⟨k, by omega, by omega, e⟩, k, by simp⟩
    · simp only [if_true]
      rcases loss_deadly σ m (k + 1) with ⟨a, b⟩ | ⟨⟨n, h1, h2, h3⟩, b⟩
      · refine Or.inl ⟨fun n h1 h2 => ?_, b⟩
        by_cases c : n = k
        · rw [c]; exact e
        · exact a n (by omega) (by omega)
      · exact Or.inr ⟨⟨n, by omega, by omega, h3⟩, b⟩

/-- The requests of the last part. -/
def pushPlan (inited : Bool) (n : Nat) : List Loss := if inited then .spoilt :: List.replicate (3 + 4 * n) .deadly else [.spoilt, .words, .spoilt]

theorem push_exact (σ : Supply) (s : FmState) (d : Deadly) (t : Str) (hs : s.sc.live = s.sc.att) :
    (firstLoss σ s.sc.req (pushPlan s.inited s.sc.att.length) = none ∧ ∃ s', pushFatalR d t σ s = (.ended d.signal, s') ∧ s'.hooked = s.hooked ∧
      if s.inited then
        s'.sc.got = s.sc.got ++ s.sc.att.map (fun i => (i, t ++ "\nExiting after fatal event  (".toList ++ d.level ++ "). Fatal type:  ".toList ++ d.reason ++ "\nLog content flushed successfully to sink\n\n".toList)) ∧
        s'.cerr = s.cerr ++ [d.fmt (t ++ "\nExiting after fatal event  (".toList ++ d.level ++ "). Fatal type:  ".toList ++ d.reason ++ "\nLog content flushed successfully to sink\n\n".toList)]
      else s'.sc.got = s.sc.got ∧
        s'.cerr = s.cerr ++ [worded σ (s.sc.req + 1) ("FATAL CALL but logger is NOT initialized\nCAUSE: ".toList ++ d.reason ++ "\nMessage: \n".toList ++ d.fmt t)]) ∨
    (∃ j, firstLoss σ s.sc.req (pushPlan s.inited s.sc.att.length) = some (j, .spoilt) ∧ pushFatalR d t σ s = (.threw .badAlloc, FmState.after s (j + 1))) ∨
    (∃ j, firstLoss σ s.sc.req (pushPlan s.inited s.sc.att.length) = some (j, .deadly) ∧ (pushFatalR d t σ s).1 = .terminated) := by
  unfold pushFatalR pushPlan
  cases hi : s.inited
  · simp only [Bool.false_eq_true, if_false]
    have hf : firstLoss σ s.sc.req [.spoilt, .words, .spoilt] =
        if σ.ok s.sc.req = true then (if σ.ok (s.sc.req + 2) = true then none else some (s.sc.req + 2, .spoilt)) else some (s.sc.req, .spoilt) := rfl
    rw [hf]
    rcases mem_seq σ s (fun σ s => (Fm.mem ⨠ (Fm.modify fun s' => { s' with cerr := s'.cerr ++ [orphanText σ s d t] }) ⨠ Fm.exit d.signal) σ { s with sc := { s.sc with req := s.sc.req + 1 } })
      with ⟨a, b⟩ | ⟨a, b⟩
    · rw [b, if_pos a]
      rcases mem_seq σ (FmState.after s (s.sc.req + 2)) ((Fm.modify fun s' => { s' with cerr := s'.cerr ++ [orphanText σ (FmState.after s (s.sc.req + 1)) d t] }) ⨠ Fm.exit d.signal) with ⟨a2, b2⟩ | ⟨a2, b2⟩
      · left
        change σ.ok (s.sc.req + 2) = true at a2
        exact ⟨if_pos a2, _, b2, rfl, rfl, rfl⟩
      · right; left
        change σ.ok (s.sc.req + 2) = false at a2
        exact ⟨_, if_neg (by simp [a2]), b2⟩
    · right; left
      exact ⟨_, if_neg (by simp [a]), b⟩
  · simp only [if_true]
    have hf : ∀ r, firstLoss σ s.sc.req (.spoilt :: r) = if σ.ok s.sc.req = true then firstLoss σ (s.sc.req + 1) r else some (s.sc.req, .spoilt) := fun _ => rfl
    rw [hf]
    rcases mem_seq σ s (bgFatalR d t).noexcept with ⟨a, b⟩ | ⟨a, b⟩
    · rw [b, if_pos a]
      rcases bg_fatal σ (FmState.after s (s.sc.req + 1)) d t hs with ⟨e, s', f1, f2, f3, f4⟩ | ⟨⟨n, e1, e2, e3⟩, f⟩
      · left
        refine ⟨?_, s', f1, f2, f3, f4⟩
        rcases loss_deadly σ (3 + 4 * s.sc.att.length) (s.sc.req + 1) with ⟨_, g⟩ | ⟨⟨n, h1, h2, h3⟩, _⟩
        · exact g
        · rw [e n h1 h2] at h3; cases h3
      · right; right
        rcases loss_deadly σ (3 + 4 * s.sc.att.length) (s.sc.req + 1) with ⟨g, _⟩ | ⟨_, j, g⟩
        · rw [g n e1 e2] at e3; cases e3
        · exact ⟨j, g, f⟩
    · right; left
      exact ⟨_, if_neg (by simp [a]), b⟩

/-- The end with a message of text `T`; `k` is the number of the request for the text of a report without a worker. -/
def EndsWith (σ : Supply) (k : Nat) (s : FmState) (d : Deadly) (T : Str) (r : FmOut × FmState) : Prop :=
  r.1 = .ended d.signal ∧ r.2.hooked = s.hooked ∧
    if s.inited then
      r.2.sc.got = s.sc.got ++ s.sc.att.map (fun i => (i, T ++ "\nExiting after fatal event  (".toList ++ d.level ++ "). Fatal type:  ".toList ++ d.reason ++ "\nLog content flushed successfully to sink\n\n".toList)) ∧
      r.2.cerr = s.cerr ++ [d.fmt (T ++ "\nExiting after fatal event  (".toList ++ d.level ++ "). Fatal type:  ".toList ++ d.reason ++ "\nLog content flushed successfully to sink\n\n".toList)]
    else r.2.sc.got = s.sc.got ∧ r.2.cerr = s.cerr ++ [worded σ k ("FATAL CALL but logger is NOT initialized\nCAUSE: ".toList ++ d.reason ++ "\nMessage: \n".toList ++ d.fmt T)]

/-- The outcomes of a part of a fatal statement in which each request spoils it. -/
def Part (σ : Supply) (s : FmState) (d : Deadly) (T : Str) (P : List Loss) (k : Nat) (r : FmOut × FmState) : Prop :=
  (firstLoss σ s.sc.req P = none ∧ EndsWith σ k s d T r) ∨ (∃ j, firstLoss σ s.sc.req P = some (j, .spoilt) ∧ r = (.threw .badAlloc, FmState.after s (j + 1))) ∨
  (∃ j, firstLoss σ s.sc.req P = some (j, .deadly) ∧ r.1 = .terminated)

theorem push_part (σ : Supply) (s : FmState) (d : Deadly) (t : Str) (hs : s.sc.live = s.sc.att) :
    Part σ s d t (pushPlan s.inited s.sc.att.length) (s.sc.req + 1) (pushFatalR d t σ s) := by
  rcases push_exact σ s d t hs with ⟨a, s', b1, b2⟩ | ⟨j, a, b⟩ | ⟨j, a, b⟩
  · exact Or.inl ⟨a, by rw [b1], by rw [b1]; exact b2⟩
  · exact Or.inr (Or.inl ⟨j, a, b⟩)
  · exact Or.inr (Or.inr ⟨j, a, b⟩)

/-- One more request in front. -/
theorem part_mem {σ : Supply} {s : FmState} {d : Deadly} {T : Str} {P : List Loss} {k : Nat} {y : Fm}
    (h : Part σ (FmState.after s (s.sc.req + 1)) d T P k (y σ (FmState.after s (s.sc.req + 1)))) : Part σ s d T (.spoilt :: P) k ((Fm.mem ⨠ y) σ s) := by
  have hf : ∀ r, firstLoss σ s.sc.req (.spoilt :: r) = if σ.ok s.sc.req = true then firstLoss σ (s.sc.req + 1) r else some (s.sc.req, .spoilt) := fun _ => rfl
  unfold Part
  rw [hf]
  rcases mem_seq σ s y with ⟨a, b⟩ | ⟨a, b⟩
  · rw [b, if_pos a]
    exact h
  · rw [b]
    exact Or.inr (Or.inl ⟨_, if_neg (by simp [a]), rfl⟩)

/-- The part after the hook. -/
theorem text_part (σ : Supply) (s : FmState) (d : Deadly) (t : Str) (hs : s.sc.live = s.sc.att) :
    Part σ s d (if s.count > 1 then t ++ d.trace ++ recursiveText (s.first.getD []) else t ++ d.trace)
      ([.spoilt] ++ (if s.count > 1 then [.spoilt] else []) ++ [.spoilt] ++ pushPlan s.inited s.sc.att.length)
      (s.sc.req + (if s.count > 1 then 4 else 3))
      ((Fm.mem ⨠ fun σ s => if s.count > 1 then (Fm.mem ⨠ Fm.mem ⨠ pushFatalR d (t ++ d.trace ++ recursiveText (s.first.getD []))) σ s else (Fm.mem ⨠ pushFatalR d (t ++ d.trace)) σ s) σ s) := by
  by_cases c : s.count > 1
  · simp only [if_pos c]
    refine part_mem (P := .spoilt :: .spoilt :: pushPlan s.inited s.sc.att.length) ?_
    have c' : (FmState.after s (s.sc.req + 1)).count > 1 := c
    rw [if_pos c']
    refine part_mem (part_mem ?_)
    exact push_part σ (FmState.after s (s.sc.req + 3)) d _ hs
  · simp only [if_neg c]
    refine part_mem (P := .spoilt :: pushPlan s.inited s.sc.att.length) ?_
    have c' : ¬ (FmState.after s (s.sc.req + 1)).count > 1 := c
    rw [if_neg c']
    refine part_mem ?_
    exact push_part σ (FmState.after s (s.sc.req + 2)) d _ hs

/-- The note about the first time. -/
theorem recursive_note (f : Str) : recursiveText f =
    "\n\n\nWARNING\nA recursive crash detected. It is likely the hook set with 'setFatalPreLoggingHook(...)' is responsible\n\n---First crash stacktrace: ".toList ++ f ++ "\n---End of first stacktrace\n".toList := by
  have h : ("\n\n\nWARNING\nA recursive crash detected. It is likely the hook set with 'setFatalPreLoggingHook(...)' is responsible\n\n---First crash stacktrace: ".toList : Str) =
      "\n\n\nWARNING\nA recursive crash detected. It is likely the hook set with 'setFatalPreLoggingHook(...)' is responsible\n\n".toList ++ "---First crash stacktrace: ".toList := by decide +kernel
  rw [h]
  rfl

theorem final_text (s : FmState) (d : Deadly) (t : Str) :
    (if s.count + 1 > 1 then t ++ d.trace ++ recursiveText ((some (s.first.getD d.trace)).getD []) else t ++ d.trace) = fatalText s d t := by
  unfold fatalText
  by_cases c : s.count = 0
  · rw [if_neg (by omega), if_pos c]
  · rw [if_pos (by omega), if_neg c, recursive_note]
    simp only [List.append_assoc, Option.getD_some]

/-- The destructor of the `LogCapture`: the outcomes. -/
def Dtor (σ : Supply) (s : FmState) (d : Deadly) (t : Str) (P : List Loss) (k : Nat) (r : FmOut × FmState) : Prop :=
  match firstLoss σ s.sc.req P with
  | none => EndsWith σ k (wasted s d) d (fatalText s d t) r
  | some (j, .clean) => r = (.threw .badAlloc, FmState.after s (j + 1))
  | some (j, .trace) => r = (.threw .badAlloc, FmState.after (unhooked s) (j + 1))
  | some (j, .spoilt) => r = (.threw .badAlloc, FmState.after (wasted s d) (j + 1))
  | some (_, .deadly) => r.1 = .terminated
  | some (_, _) => False

theorem part_dtor {σ : Supply} {s s1 : FmState} {d : Deadly} {t : Str} {P Q : List Loss} {k : Nat} {r : FmOut × FmState}
    (hf : firstLoss σ s.sc.req Q = firstLoss σ s1.sc.req P) (h1 : ∃ q, s1 = FmState.after (wasted s d) q) (h : Part σ s1 d (fatalText s d t) P k r) : Dtor σ s d t Q k r := by
  obtain ⟨q, rfl⟩ := h1
  unfold Dtor
  rw [hf]
  rcases h with ⟨a, b⟩ | ⟨j, a, b⟩ | ⟨j, a, b⟩
  · rw [a]; exact b
  · rw [a]; exact b
  · rw [a]; exact b

/-- From g3log.cpp:168 on. -/
def textPart (d : Deadly) (t : Str) : Fm := Fm.mem ⨠ fun σ s =>
  if s.count > 1 then (Fm.mem ⨠ Fm.mem ⨠ pushFatalR d (t ++ d.trace ++ recursiveText (s.first.getD []))) σ s else (Fm.mem ⨠ pushFatalR d (t ++ d.trace)) σ s

/-- From g3log.cpp:161 on. -/
def hookPart (d : Deadly) (t : Str) (h : Option Nat) : Fm :=
  (Fm.modify fun s => { s with hook := none, count := s.count + 1 }) ⨠ keepFirst d.trace ⨠ callHook h ⨠ textPart d t

theorem save_parts (d : Deadly) (t : Str) : saveDeadly d t = Fm.mem ⨠ Fm.mem ⨠ fun σ s => hookPart d t s.hook σ s := rfl

theorem callHook_eq (σ : Supply) (s : FmState) (h : Option Nat) : callHook h σ s = (.ok, { s with hooked := s.hooked ++ h.toList }) := by
  cases h with
  | none => simp [callHook, Fm.modify]
  | some i => rfl

theorem text_dtor (σ : Supply) (s : FmState) (d : Deadly) (t : Str) (q : Nat) (hs : s.sc.live = s.sc.att) (Q : List Loss)
    (hQ : firstLoss σ s.sc.req Q = firstLoss σ q ([.spoilt] ++ (if s.count + 1 > 1 then [.spoilt] else []) ++ [.spoilt] ++ pushPlan s.inited s.sc.att.length)) :
    Dtor σ s d t Q (q + (if s.count + 1 > 1 then 4 else 3)) (textPart d t σ (FmState.after (wasted s d) q)) := by
  refine part_dtor hQ ⟨q, rfl⟩ ?_
  have h := text_part σ (FmState.after (wasted s d) q) d t hs
  rw [show (FmState.after (wasted s d) q).count = s.count + 1 from rfl, show (FmState.after (wasted s d) q).first = some (s.first.getD d.trace) from rfl, final_text] at h
  exact h

/-- One request in front that costs nothing but the exception. -/
theorem dtor_clean {σ : Supply} {s : FmState} {d : Deadly} {t : Str} {P : List Loss} {k : Nat} {y : Fm}
    (h : Dtor σ (FmState.after s (s.sc.req + 1)) d t P k (y σ (FmState.after s (s.sc.req + 1)))) : Dtor σ s d t (.clean :: P) k ((Fm.mem ⨠ y) σ s) := by
  have hf : firstLoss σ s.sc.req (.clean :: P) = if σ.ok s.sc.req = true then firstLoss σ (s.sc.req + 1) P else some (s.sc.req, .clean) := rfl
  unfold Dtor
  rw [hf]
  rcases mem_seq σ s y with ⟨a, b⟩ | ⟨a, b⟩
  · rw [b, if_pos a]
    exact h
  · rw [b, if_neg (by simp [a])]

theorem fseq_assoc (σ : Supply) (s : FmState) (x y z : Fm) : ((x ⨠ y) ⨠ z) σ s = (x ⨠ y ⨠ z) σ s := by
  unfold Fm.seq
  cases x σ s with
  | mk o q => cases o <;> rfl

theorem hook_dtor (σ : Supply) (s : FmState) (d : Deadly) (t : Str) (hs : s.sc.live = s.sc.att) :
    Dtor σ s d t ((if s.first.isNone then [.trace] else []) ++ ([.spoilt] ++ (if s.count + 1 > 1 then [.spoilt] else []) ++ [.spoilt] ++ pushPlan s.inited s.sc.att.length))
      (s.sc.req + (if s.first.isNone then 1 else 0) + (if s.count + 1 > 1 then 4 else 3)) (hookPart d t s.hook σ s) := by
  unfold hookPart
  rw [fseq_mod]
  obtain ⟨sc, ini, hk, ct, fi, ho, ce, ca, fu⟩ := s
  simp only at hs ⊢
  have hh : ∀ (q : FmState) (y : Fm), (callHook hk ⨠ y) σ q = y σ { q with hooked := q.hooked ++ hk.toList } := fun q y => fseq_ok (callHook_eq σ q hk)
  cases fi with
  | some f =>
    rw [show (some f).isNone = false from rfl]
    simp only [Bool.false_eq_true, if_false, Nat.add_zero, List.nil_append]
    rw [fseq_ok (x := keepFirst d.trace) (s' := ⟨sc, ini, none, ct + 1, some f, ho, ce, ca, fu⟩) rfl, hh]
    exact text_dtor σ ⟨sc, ini, hk, ct, some f, ho, ce, ca, fu⟩ d t sc.req hs _ rfl
  | none =>
    rw [show (none : Option Str).isNone = true from rfl]
    simp only [if_true]
    have h0 : ∀ y : Fm, (keepFirst d.trace ⨠ y) σ ⟨sc, ini, none, ct + 1, none, ho, ce, ca, fu⟩ =
        (Fm.mem ⨠ (Fm.modify fun s => { s with first := some d.trace }) ⨠ y) σ ⟨sc, ini, none, ct + 1, none, ho, ce, ca, fu⟩ := fun y => fseq_assoc σ _ Fm.mem _ y
    rw [h0]
    have hg : ∀ r, firstLoss σ sc.req ([.trace] ++ r) = if σ.ok sc.req = true then firstLoss σ (sc.req + 1) r else some (sc.req, .trace) := fun _ => rfl
    rcases mem_seq σ ⟨sc, ini, none, ct + 1, none, ho, ce, ca, fu⟩ ((Fm.modify fun s => { s with first := some d.trace }) ⨠ callHook hk ⨠ textPart d t) with ⟨a, b⟩ | ⟨a, b⟩
    · change σ.ok sc.req = true at a
      rw [b, fseq_mod, hh]
      refine text_dtor σ ⟨sc, ini, hk, ct, none, ho, ce, ca, fu⟩ d t (sc.req + 1) hs _ ?_
      exact (hg _).trans (if_pos a)
    · change σ.ok sc.req = false at a
      rw [b]
      unfold Dtor
      rw [hg, if_neg (by simp [a])]
      rfl

theorem save_deadly (σ : Supply) (s : FmState) (d : Deadly) (t : Str) (hs : s.sc.live = s.sc.att) :
    Dtor σ s d t (.clean :: .clean :: ((if s.first.isNone then [.trace] else []) ++ ([.spoilt] ++ (if s.count + 1 > 1 then [.spoilt] else []) ++ [.spoilt] ++ pushPlan s.inited s.sc.att.length)))
      (s.sc.req + 2 + (if s.first.isNone then 1 else 0) + (if s.count + 1 > 1 then 4 else 3)) (saveDeadly d t σ s) := by
  rw [save_parts]
  exact dtor_clean (dtor_clean (y := fun σ s => hookPart d t s.hook σ s) (hook_dtor σ (FmState.after s (s.sc.req + 2)) d t hs))

/-! ### The statement -/

theorem plan_tail (s : FmState) : planOf s = .early :: .early :: .words :: (.clean :: .clean :: ((if s.first.isNone then [.trace] else []) ++
    ([.spoilt] ++ (if s.count + 1 > 1 then [.spoilt] else []) ++ [.spoilt] ++ pushPlan s.inited s.sc.att.length))) := by
  unfold planOf fatalPlan pushPlan
  have hc : (decide (1 ≤ s.count) = true) ↔ s.count + 1 > 1 := by rw [decide_eq_true_eq]; omega
  simp only [hc, List.append_assoc, List.cons_append, List.nil_append]

/-- **C108**, exactly: what becomes of a fatal statement is decided by the first request that fails and costs more than words. -/
theorem C108_exact (σ : Supply) (s : FmState) (d : Deadly) (b : Bool) (hs : NoLeak s.sc) : fatalFate σ s d b (firstLoss σ s.sc.req (planOf s)) (fatalR d b σ s) := by
  have hl : s.sc.live = s.sc.att := hs.1
  have hf : ∀ (k : Nat) r, firstLoss σ k (.early :: r) = if σ.ok k = true then firstLoss σ (k + 1) r else some (k, .early) := fun _ _ => rfl
  have hw : ∀ (k : Nat) r, firstLoss σ k (.words :: r) = firstLoss σ (k + 1) r := fun _ _ => rfl
  have hlen : (planOf s).length - 2 = 3 + (2 + (if s.first.isNone then 1 else 0) + (if s.count + 1 > 1 then 4 else 3)) ∨ s.inited = true := by
    rw [plan_tail]
    unfold pushPlan
    cases s.inited
    · left
      cases s.first.isNone <;> by_cases c : s.count + 1 > 1 <;> simp [c]
    · exact Or.inr rfl
  have hsave := save_deadly σ (FmState.after s (s.sc.req + 3)) d (inserted σ { s.sc with req := s.sc.req + 2 } d.text) hl
  have hp := plan_tail s
  unfold fatalR
  rcases mem_seq σ s (Fm.mem ⨠ fun σ s => if b then (saveDeadly d (inserted σ s.sc d.text)).during .user σ { s with sc := { s.sc with req := s.sc.req + 1 } }
    else saveDeadly d (inserted σ s.sc d.text) σ { s with sc := { s.sc with req := s.sc.req + 1 } }) with ⟨a, e⟩ | ⟨a, e⟩
  case inr =>
    rw [e, hp, hf, if_neg (by simp [a])]
    rfl
  rw [e]
  rcases mem_seq σ (FmState.after s (s.sc.req + 1)) (fun σ s => if b then (saveDeadly d (inserted σ s.sc d.text)).during .user σ { s with sc := { s.sc with req := s.sc.req + 1 } }
    else saveDeadly d (inserted σ s.sc d.text) σ { s with sc := { s.sc with req := s.sc.req + 1 } }) with ⟨a2, e2⟩ | ⟨a2, e2⟩
  case inr =>
    change σ.ok (s.sc.req + 1) = false at a2
    rw [e2, hp, hf, if_pos a, hf, if_neg (by simp [a2])]
    rfl
  change σ.ok (s.sc.req + 1) = true at a2
  rw [e2]
  have hloss : firstLoss σ s.sc.req (planOf s) = firstLoss σ (s.sc.req + 3) (.clean :: .clean :: ((if s.first.isNone then [.trace] else []) ++
      ([.spoilt] ++ (if s.count + 1 > 1 then [.spoilt] else []) ++ [.spoilt] ++ pushPlan s.inited s.sc.att.length))) := by
    rw [hp, hf, if_pos a, hf, if_pos a2, hw]
  rw [hloss]
  change fatalFate σ s d b _ (if b then (saveDeadly d (inserted σ { s.sc with req := s.sc.req + 2 } d.text)).during .user σ (FmState.after s (s.sc.req + 3))
    else saveDeadly d (inserted σ { s.sc with req := s.sc.req + 2 } d.text) σ (FmState.after s (s.sc.req + 3)))
  have hd : ∀ x : FmOut × FmState, saveDeadly d (inserted σ { s.sc with req := s.sc.req + 2 } d.text) σ (FmState.after s (s.sc.req + 3)) = x →
      (saveDeadly d (inserted σ { s.sc with req := s.sc.req + 2 } d.text)).during .user σ (FmState.after s (s.sc.req + 3)) =
        match x with | (.ok, s') => (.threw .user, s') | (.threw _, s') => (.terminated, s') | r => r := by
    intro x hx
    unfold Fm.during
    rw [hx]
    rfl
  revert hsave hd
  generalize saveDeadly d (inserted σ { s.sc with req := s.sc.req + 2 } d.text) σ (FmState.after s (s.sc.req + 3)) = x
  generalize (saveDeadly d (inserted σ { s.sc with req := s.sc.req + 2 } d.text)).during .user σ (FmState.after s (s.sc.req + 3)) = y
  intro hsave hd
  have hd := hd x rfl
  have hins : inserted σ { s.sc with req := s.sc.req + 2 } d.text = worded σ (s.sc.req + 2) d.text := rfl
  rw [hins] at hsave
  unfold Dtor at hsave
  change (match firstLoss σ (s.sc.req + 3) (.clean :: .clean :: ((if s.first.isNone then [.trace] else []) ++
      ([.spoilt] ++ (if s.count + 1 > 1 then [.spoilt] else []) ++ [.spoilt] ++ pushPlan s.inited s.sc.att.length))) with
    | none => _ | some (j, .clean) => _ | some (j, .trace) => _ | some (j, .spoilt) => _ | some (_, .deadly) => _ | some (_, _) => _) at hsave
  unfold fatalFate
  cases hL : firstLoss σ (s.sc.req + 3) (.clean :: .clean :: ((if s.first.isNone then [.trace] else []) ++
      ([.spoilt] ++ (if s.count + 1 > 1 then [.spoilt] else []) ++ [.spoilt] ++ pushPlan s.inited s.sc.att.length))) with
  | none =>
    simp only [hL] at hsave
    obtain ⟨h1, h2, h3⟩ := hsave
    have hy : y = x := by
      rw [hd]
      obtain ⟨o, q⟩ := x
      change o = .ended d.signal at h1
      subst h1
      rfl
    have hr : (if b = true then y else x) = x := by rw [hy]; simp
    simp only [hr]
    refine ⟨h1, h2, ?_⟩
    have h3' := h3
    clear h3
    cases hi : s.inited
    · rw [show (wasted (FmState.after s (s.sc.req + 3)) d).inited = s.inited from rfl, hi] at h3'
      simp only [Bool.false_eq_true, if_false] at h3' ⊢
      refine ⟨h3'.1, h3'.2.trans ?_⟩
      unfold orphanReport
      have hlen : (planOf s).length - 2 = 3 + (2 + (if s.first.isNone then 1 else 0) + (if s.count + 1 > 1 then 4 else 3)) := by
        rcases hlen with h | h
        · exact h
        · rw [hi] at h; cases h
      have h2 : 2 ≤ (planOf s).length := by rw [hp]; simp
      have hk : s.sc.req + (planOf s).length - 2 = s.sc.req + 3 + 2 + (if s.first.isNone then 1 else 0) + (if s.count + 1 > 1 then 4 else 3) := by omega
      rw [hk]
      rfl
    · rw [show (wasted (FmState.after s (s.sc.req + 3)) d).inited = s.inited from rfl, hi] at h3'
      simp only [if_true] at h3' ⊢
      exact h3'
  | some jl =>
    obtain ⟨j, l⟩ := jl
    simp only [hL] at hsave
    cases l with
    | early => exact hsave.elim
    | words => exact hsave.elim
    | deadly =>
      show (if b = true then y else x).1 = .terminated
      cases b
      · exact hsave
      · have : y = x := by
          rw [hd]
          obtain ⟨o, q⟩ := x
          change o = .terminated at hsave
          subst hsave
          rfl
        rw [this]
        exact hsave
    | clean =>
      cases b
      · exact hsave
      · show y.1 = .terminated
        rw [hd, hsave]
    | trace =>
      cases b
      · exact hsave
      · show y.1 = .terminated
        rw [hd, hsave]
    | spoilt =>
      cases b
      · exact hsave
      · show y.1 = .terminated
        rw [hd, hsave]

theorem loss_plenty (σ : Supply) : ∀ (P : List Loss) (k : Nat), PlentyFrom σ k → firstLoss σ k P = none
  | [], _, _ => rfl
  | l :: P, k, h => by
    have ih := loss_plenty σ P (k + 1) fun n hn => h n (by omega)
    cases l with
    | words => exact ih
    | _ => exact (if_pos (h k (Nat.le_refl _))).trans ih

/-- **C108** as far as it holds: with memory a fatal statement ends the process by its signal, after the hook has been called once and, if logging is initialised, each attached sink has got the whole report.
(What is missing is the lack of memory: `C108_exact`.) -/
theorem C108_partial (σ : Supply) (s : FmState) (d : Deadly) (b : Bool) (hs : NoLeak s.sc) (h : PlentyFrom σ s.sc.req) :
    (fatalR d b σ s).1 = .ended d.signal ∧ (fatalR d b σ s).2.hooked = s.hooked ++ s.hook.toList ∧
      (s.inited = true → (fatalR d b σ s).2.sc.got = s.sc.got ++ s.sc.att.map (fun i => (i, fatalReport s d d.text))) := by
  have e := C108_exact σ s d b hs
  rw [loss_plenty σ _ _ h] at e
  obtain ⟨e1, e2, e3⟩ := e
  refine ⟨e1, e2, fun hi => ?_⟩
  rw [hi] at e3
  have := e3.1
  unfold worded at this
  rw [if_pos (h _ (by omega))] at this
  exact this

/-- **C108**: whatever fails, a fatal statement does not return: the process ends, or `bad_alloc` is thrown; and if a message got to the worker, the process ends. -/
theorem C108_never_returns (σ : Supply) (s : FmState) (d : Deadly) (b : Bool) (hs : NoLeak s.sc) :
    (fatalR d b σ s).1 = .ended d.signal ∨ (fatalR d b σ s).1 = .terminated ∨ (fatalR d b σ s).1 = .threw .badAlloc := by
  have e := C108_exact σ s d b hs
  revert e
  cases firstLoss σ s.sc.req (planOf s) with
  | none => exact fun e => Or.inl e.1
  | some jl =>
    obtain ⟨j, l⟩ := jl
    cases l with
    | early => intro e; change _ = _ at e; rw [e]; exact Or.inr (Or.inr rfl)
    | words => exact fun e => e.elim
    | deadly => exact fun e => Or.inr (Or.inl e)
    | clean => cases b with
      | true => exact fun e => Or.inr (Or.inl e)
      | false => intro e; change _ = _ at e; rw [e]; exact Or.inr (Or.inr rfl)
    | trace => cases b with
      | true => exact fun e => Or.inr (Or.inl e)
      | false => intro e; change _ = _ at e; rw [e]; exact Or.inr (Or.inr rfl)
    | spoilt => cases b with
      | true => exact fun e => Or.inr (Or.inl e)
      | false => intro e; change _ = _ at e; rw [e]; exact Or.inr (Or.inr rfl)

/-- **C108**: if a fatal statement throws, sinks, handles and logging are as before; no sink and not stderr has got anything; at most the hook is gone. -/
theorem C108_throws (σ : Supply) (s s' : FmState) (d : Deadly) (b : Bool) (e : RErr) (hs : NoLeak s.sc) (h : fatalR d b σ s = (.threw e, s')) :
    e = .badAlloc ∧ s'.sc = { s.sc with req := s'.sc.req } ∧ s'.inited = s.inited ∧ s'.cerr = s.cerr ∧ s'.calls = s.calls ∧ s'.futures = s.futures ∧
      ((s'.hook = s.hook ∧ s'.count = s.count ∧ s'.hooked = s.hooked ∧ s'.first = s.first) ∨
       (s'.hook = none ∧ s'.count = s.count + 1 ∧ s'.hooked = s.hooked ∧ s.first = none ∧ s'.first = none) ∨
       (s'.hook = none ∧ s'.count = s.count + 1 ∧ s'.hooked = s.hooked ++ s.hook.toList ∧ s'.first = some (s.first.getD d.trace))) := by
  have x := C108_exact σ s d b hs
  have key : ∀ q : FmState, (FmOut.threw e, s') = (FmOut.threw .badAlloc, q) → e = .badAlloc ∧ s' = q := by
    intro q hq
    rw [Prod.mk.injEq, FmOut.threw.injEq] at hq
    exact hq
  rw [h] at x
  have ht : firstLoss σ s.sc.req (planOf s) = none ∨ (∃ j l, firstLoss σ s.sc.req (planOf s) = some (j, l) ∧ (l = .trace → s.first = none)) := by
    rcases hfl : firstLoss σ s.sc.req (planOf s) with _ | ⟨j, l⟩
    · exact Or.inl rfl
    · refine Or.inr ⟨j, l, rfl, fun hl => ?_⟩
      subst hl
      by_contra hne
      have : Loss.trace ∉ planOf s := by
        unfold planOf fatalPlan
        cases hf : s.first with
        | none => exact absurd hf hne
        | some f => cases s.inited <;> cases decide (1 ≤ s.count) <;> simp
      have mem : ∀ (P : List Loss) (k j : Nat) (l : Loss), firstLoss σ k P = some (j, l) → l ∈ P := by
        intro P
        induction P with
        | nil => intro k j l h; cases h
        | cons a P ih =>
          intro k j l h
          have gen : (if σ.ok k = true then firstLoss σ (k + 1) P else some (k, a)) = some (j, l) → l ∈ a :: P := by
            intro h
            split at h
            · exact List.mem_cons_of_mem _ (ih _ _ _ h)
            · cases h; exact List.mem_cons_self
          cases a with
          | words => exact List.mem_cons_of_mem _ (ih _ _ _ h)
          | _ => exact gen h
      exact this (mem _ _ _ _ hfl)
  rcases ht with hn | ⟨j, l, hl, hfirst⟩
  · rw [hn] at x
    have := x.1
    cases this
  · rw [hl] at x
    cases l with
    | early => obtain ⟨rfl, rfl⟩ := key _ x; exact ⟨rfl, rfl, rfl, rfl, rfl, rfl, Or.inl ⟨rfl, rfl, rfl, rfl⟩⟩
    | words => exact x.elim
    | deadly => change FmOut.threw e = FmOut.terminated at x; cases x
    | clean => cases b with
      | true => change FmOut.threw e = FmOut.terminated at x; cases x
      | false => obtain ⟨rfl, rfl⟩ := key _ x; exact ⟨rfl, rfl, rfl, rfl, rfl, rfl, Or.inl ⟨rfl, rfl, rfl, rfl⟩⟩
    | trace => cases b with
      | true => change FmOut.threw e = FmOut.terminated at x; cases x
      | false => obtain ⟨rfl, rfl⟩ := key _ x; exact ⟨rfl, rfl, rfl, rfl, rfl, rfl, Or.inr (Or.inl ⟨rfl, rfl, rfl, hfirst rfl, hfirst rfl⟩)⟩
    | spoilt => cases b with
      | true => change FmOut.threw e = FmOut.terminated at x; cases x
      | false => obtain ⟨rfl, rfl⟩ := key _ x; exact ⟨rfl, rfl, rfl, rfl, rfl, rfl, Or.inr (Or.inr ⟨rfl, rfl, rfl, rfl⟩)⟩

/-- **C108**: a fatal statement after one that has failed with the hook gone: with all the memory it wants no hook is called, and the report says that there was a crash in a crash, with the stack of the statement
that failed if that got so far. -/
theorem C108_second (σ τ : Supply) (s s' : FmState) (d d' : Deadly) (b : Bool) (e : RErr) (hs : NoLeak s.sc) (h : fatalR d false σ s = (.threw e, s')) (hc : s'.count ≠ s.count)
    (hp : PlentyFrom τ s'.sc.req) (hi : s.inited = true) :
    (fatalR d' b τ s').1 = .ended d'.signal ∧ (fatalR d' b τ s').2.hooked = s'.hooked ∧
      ∃ f, (f = s.first.getD d.trace ∨ s'.hooked = s.hooked ∧ s.first = none ∧ f = d'.trace) ∧ (fatalR d' b τ s').2.sc.got = s.sc.got ++ s.sc.att.map (fun i => (i, d'.text ++ d'.trace ++
        "\n\n\nWARNING\nA recursive crash detected. It is likely the hook set with 'setFatalPreLoggingHook(...)' is responsible\n\n---First crash stacktrace: ".toList ++ f ++ "\n---End of first stacktrace\n".toList ++
        "\nExiting after fatal event  (".toList ++ d'.level ++ "). Fatal type:  ".toList ++ d'.reason ++ "\nLog content flushed successfully to sink\n\n".toList)) := by
  obtain ⟨_, h2, h3, _, _, _, h7⟩ := C108_throws σ s s' d false e hs h
  have hs' : NoLeak s'.sc := by rw [h2]; exact hs
  obtain ⟨p1, p2, p3⟩ := C108_partial τ s' d' b hs' hp
  have p3 := p3 (by rw [h3]; exact hi)
  have hg : s'.sc.got = s.sc.got := by rw [h2]
  have ha : s'.sc.att = s.sc.att := by rw [h2]
  have hne : s'.count ≠ 0 := by
    rcases h7 with ⟨_, c, _⟩ | ⟨_, c, _⟩ | ⟨_, c, _⟩
    · exact absurd c hc
    · omega
    · omega
  have hrep : fatalReport s' d' d'.text = d'.text ++ d'.trace ++
        "\n\n\nWARNING\nA recursive crash detected. It is likely the hook set with 'setFatalPreLoggingHook(...)' is responsible\n\n---First crash stacktrace: ".toList ++ s'.first.getD d'.trace ++ "\n---End of first stacktrace\n".toList ++
        "\nExiting after fatal event  (".toList ++ d'.level ++ "). Fatal type:  ".toList ++ d'.reason ++ "\nLog content flushed successfully to sink\n\n".toList := by
    unfold fatalReport fatalText
    rw [if_neg hne]
  rw [hrep, hg, ha] at p3
  have hh : s'.hook = none := by
    rcases h7 with ⟨_, c, _⟩ | ⟨c, _⟩ | ⟨c, _⟩
    · exact absurd c hc
    · exact c
    · exact c
  rw [hh] at p2
  refine ⟨p1, by simpa using p2, _, ?_, p3⟩
  rcases h7 with ⟨_, c, _⟩ | ⟨_, _, c1, c0, c2⟩ | ⟨_, _, _, c2⟩
  · exact absurd c hc
  · rw [c2]; exact Or.inr ⟨c1, c0, rfl⟩
  · rw [c2]; exact Or.inl rfl

/-! ### Programs -/

theorem lift_state (x : Sc) (σ : Supply) (s : FmState) : (Fm.lift x σ s).2 = { s with sc := (x σ s.sc).2 } ∧ ((Fm.lift x σ s).1.over = true ↔ (x σ s.sc).1 = .terminated) := by
  unfold Fm.lift
  cases x σ s.sc with
  | mk o c => cases o <;> exact ⟨rfl, by simp [FmOut.over]⟩

/-- `callR`: the outcomes. -/
theorem call_cases (σ : Supply) (s : FmState) (i : Nat) (a : Str) : ∃ k,
    (i ∈ s.sc.live ∧ callR i a σ s = (.ok, { FmState.after s k with calls := s.calls ++ [(i, a)], futures := s.futures ++ [some (i, a)] })) ∨
    (i ∉ s.sc.live ∧ callR i a σ s = (.ok, { FmState.after s k with futures := s.futures ++ [none] })) ∨
    callR i a σ s = (.threw .badAlloc, FmState.after s k) := by
  unfold callR
  by_cases h : i ∈ s.sc.live
  · rw [if_pos h]
    rcases mem_seq σ s (Fm.mem ⨠ Fm.modify fun s => { s with calls := s.calls ++ [(i, a)], futures := s.futures ++ [some (i, a)] }) with ⟨_, b⟩ | ⟨_, b⟩
    · rw [b]
      rcases mem_seq σ (FmState.after s (s.sc.req + 1)) (Fm.modify fun s => { s with calls := s.calls ++ [(i, a)], futures := s.futures ++ [some (i, a)] }) with ⟨_, b⟩ | ⟨_, b⟩
      · exact ⟨_, Or.inl ⟨h, b⟩⟩
      · exact ⟨_, Or.inr (Or.inr b)⟩
    · exact ⟨_, Or.inr (Or.inr b)⟩
  · rw [if_neg h]
    rcases mem_seq σ s (Fm.modify fun s => { s with futures := s.futures ++ [none] }) with ⟨_, b⟩ | ⟨_, b⟩
    · exact ⟨_, Or.inr (Or.inl ⟨h, b⟩)⟩
    · exact ⟨_, Or.inr (Or.inr b)⟩

theorem hook_cases (σ : Supply) (s : FmState) (h : Nat) : ∃ k, setHookR h σ s = (.ok, { FmState.after s k with hook := some h }) ∨ setHookR h σ s = (.threw .badAlloc, FmState.after s k) := by
  unfold setHookR
  rcases mem_seq σ s (Fm.modify fun s => { s with hook := some h }) with ⟨_, b⟩ | ⟨_, b⟩
  · exact ⟨_, Or.inl b⟩
  · exact ⟨_, Or.inr b⟩

/-- What holds between two calls. -/
def FmGood (s : FmState) : Prop := NoLeak s.sc ∧ (s.inited = true → s.sc.worker = true) ∧ s.calls = s.futures.filterMap id

theorem base_worker (σ : Supply) (s : ScState) (o : ROp) (hs : NoLeak s) (ho : o ≠ .destroy) (hw : s.worker = true) (ha : o.allowed s = true) (ht : (o.exec σ s).1 ≠ .terminated) :
    (o.exec σ s).2.worker = true := by
  cases o with
  | create => simp [ROp.allowed, hw] at ha
  | destroy => exact absurd rfl ho
  | add =>
    obtain ⟨r, h | h | h | h | h⟩ := C103_add σ s hs
    · simp only [ROp.exec]; rw [h]; exact hw
    · simp only [ROp.exec]; rw [h]; exact hw
    · simp only [ROp.exec]; rw [h]; exact hw
    · simp only [ROp.exec]; rw [h]; exact hw
    · exact absurd h ht
  | remove i =>
    obtain ⟨r, h1, h2⟩ := C103_remove σ s i
    by_cases hi : i ∈ s.att
    · have hc : (s.att.erase i).count i = 0 := List.count_eq_zero.2 fun c => (noleak_nodup hs).not_mem_erase c
      rcases h1 ⟨hi, hc⟩ with h | h | h
      · simp only [ROp.exec]; rw [h]; exact hw
      · simp only [ROp.exec]; rw [h]; exact hw
      · exact absurd h ht
    · rcases h2 hi with h | h
      · simp only [ROp.exec]; rw [h]; exact hw
      · simp only [ROp.exec]; rw [h]; exact hw
  | removeAll =>
    obtain ⟨r, h | h | h⟩ := C103_removeAll σ s hs
    · simp only [ROp.exec]; rw [h]; exact hw
    · simp only [ROp.exec]; rw [h]; exact hw
    · exact absurd h ht
  | log t b =>
    obtain ⟨r, ⟨t', _, _, h⟩ | h | h⟩ := C103_log σ s t b
    · simp only [ROp.exec]; rw [h]; exact hw
    · simp only [ROp.exec]; rw [h]; exact hw
    · exact absurd h ht

theorem good_exec (σ : Supply) (s : FmState) (o : FmOp) (h : FmGood s) (ha : o.allowed s = true) (ht : (o.exec σ s).1.over = false) : FmGood (o.exec σ s).2 := by
  obtain ⟨h1, h2, h3⟩ := h
  have base : ∀ o : ROp, o ≠ .destroy → o.allowed s.sc = true → (Fm.lift o.exec σ s).1.over = false → FmGood (Fm.lift o.exec σ s).2 := by
    intro o hd ha ht
    obtain ⟨e1, e2⟩ := lift_state o.exec σ s
    have hnt : (o.exec σ s.sc).1 ≠ .terminated := fun c => by rw [e2.2 c] at ht; cases ht
    rw [e1]
    refine ⟨noleak_exec σ s.sc o h1 ha hnt, fun hi => base_worker σ s.sc o h1 hd (h2 hi) ha hnt, h3⟩
  cases o with
  | base o =>
    cases o with
    | destroy =>
      have hx : FmOp.exec (.base .destroy) = (Fm.lift destroyWorker ⨠ Fm.modify fun s => { s with inited := false }) := rfl
      rw [hx] at ht ⊢
      obtain ⟨r, e | e⟩ := C103_destroy σ s.sc h1
      · rw [fseq_ok (lift_ok e)]
        refine ⟨?_, ?_, h3⟩
        · have := noleak_exec σ s.sc .destroy h1 ha (by show (destroyWorker σ s.sc).1 ≠ _; rw [e]; simp)
          change NoLeak (destroyWorker σ s.sc).2 at this
          rw [e] at this
          exact this
        · intro c; cases c
      · have hb := lift_bad (σ := σ) (s := s) (x := destroyWorker) (by rw [e]; simp)
        have ho := (lift_state destroyWorker σ s).2.2 e
        rw [fseq_not hb, ho] at ht
        cases ht
    | create => exact base .create (by simp) ha ht
    | add => exact base .add (by simp) ha ht
    | remove i => exact base (.remove i) (by simp) ha ht
    | removeAll => exact base .removeAll (by simp) ha ht
    | log t b =>
      refine base (.log t b) (by simp) ?_ ht
      change (s.inited && (ROp.log t b).allowed s.sc) = true at ha
      rw [Bool.and_eq_true] at ha
      exact ha.2
  | init =>
    change (s.sc.worker && !s.inited) = true at ha
    rw [Bool.and_eq_true] at ha
    exact ⟨h1, fun _ => ha.1, h3⟩
  | shutdown => exact ⟨h1, (fun c => by cases c), h3⟩
  | setHook n =>
    show FmGood (setHookR n σ s).2
    obtain ⟨k, e | e⟩ := hook_cases σ s n
    · rw [e]; exact ⟨h1, h2, h3⟩
    · rw [e]; exact ⟨h1, h2, h3⟩
  | call i a =>
    show FmGood (callR i a σ s).2
    obtain ⟨k, ⟨_, e⟩ | ⟨_, e⟩ | e⟩ := call_cases σ s i a
    · rw [e]; exact ⟨h1, h2, by rw [List.filterMap_append, ← h3]; rfl⟩
    · rw [e]; exact ⟨h1, h2, by rw [List.filterMap_append, ← h3]; exact (List.append_nil _).symm⟩
    · rw [e]; exact ⟨h1, h2, h3⟩
  | fatal d b =>
    change (fatalR d b σ s).1.over = false at ht
    show FmGood (fatalR d b σ s).2
    have hc := C108_never_returns σ s d b h1
    have hx := C108_throws σ s
    revert hc hx ht
    cases hr : fatalR d b σ s with
    | mk o s' =>
      intro ht hc hx
      rcases hc with c | c | c
      · change o = _ at c; rw [c] at ht; cases ht
      · change o = _ at c; rw [c] at ht; cases ht
      · change o = _ at c
        subst c
        obtain ⟨_, x2, x3, _, x5, x6, _⟩ := hx s' d b .badAlloc h1 hr
        refine ⟨by rw [x2]; exact h1, ?_, by rw [x5, x6]; exact h3⟩
        intro hi
        rw [x2]
        exact h2 (by rw [← x3]; exact hi)

theorem good_run (σ : Supply) : ∀ (ops : List FmOp) (s : FmState), FmGood s → (∀ o ∈ (fmRun σ s ops).1, o.over = false) → FmGood (fmRun σ s ops).2
  | [], _, h, _ => h
  | o :: ops, s, h, ht => by
    unfold fmRun at ht ⊢
    cases ha : o.allowed s
    · simp only [ha, Bool.false_eq_true, if_false] at ht ⊢
      exact good_run σ ops s h ht
    · simp only [ha, if_true] at ht ⊢
      cases ho : (o.exec σ s).1.over
      · simp only [ho, Bool.false_eq_true, if_false] at ht ⊢
        exact good_run σ ops _ (good_exec σ s o h ha ho) fun x hx => ht x (List.mem_cons_of_mem _ hx)
      · simp only [ho, if_true] at ht
        rw [ht _ (List.mem_singleton.2 rfl)] at ho
        cases ho

theorem good_start : FmGood .start := ⟨noleak_start, (fun c => by cases c), rfl⟩

/-- **C108**: initialising logging again forgets what failed before: the next fatal statement, with the memory it wants, calls no hook unless one is set again, and its report is that of a first crash. -/
theorem C108_again (σ : Supply) (s : FmState) (d : Deadly) (b : Bool) (hs : NoLeak s.sc) (hp : PlentyFrom σ s.sc.req) :
    (FmOp.init.exec σ s).1 = .ok ∧ (fatalR d b σ (FmOp.init.exec σ s).2).1 = .ended d.signal ∧ (fatalR d b σ (FmOp.init.exec σ s).2).2.hooked = s.hooked ∧
      (fatalR d b σ (FmOp.init.exec σ s).2).2.sc.got = s.sc.got ++ s.sc.att.map (fun i => (i, plainReportOf d)) := by
  obtain ⟨h1, h2, h3⟩ := C108_partial σ (FmOp.init.exec σ s).2 d b hs hp
  exact ⟨rfl, h1, h2.trans (List.append_nil _), h3 rfl⟩

/-- **C108**, programs: as long as the process lives, whatever fails and whatever fatal statements have thrown, nothing has leaked. -/
theorem C108_no_leak (σ : Supply) (ops : List FmOp) (h : ∀ o ∈ (fmRun σ .start ops).1, o.over = false) : NoLeak (fmRun σ .start ops).2.sc :=
  (good_run σ ops .start good_start h).1

/-! ### The end -/

theorem ended_mem {σ : Supply} {s s' : FmState} {y : Fm} {n : Int} (h : (Fm.mem ⨠ y) σ s = (.ended n, s')) : y σ (FmState.after s (s.sc.req + 1)) = (.ended n, s') := by
  rcases mem_seq σ s y with ⟨_, e⟩ | ⟨_, e⟩
  · rw [← e]; exact h
  · rw [e] at h; simp at h

theorem ended_lift {σ : Supply} {s s' : FmState} {x : Sc} {y : Fm} {n : Int} (h : (Fm.lift x ⨠ y) σ s = (.ended n, s')) :
    ∃ c, x σ s.sc = (.ok, c) ∧ y σ { s with sc := c } = (.ended n, s') := by
  cases e : x σ s.sc with
  | mk r c =>
    cases r with
    | ok => rw [fseq_ok (lift_ok e)] at h; exact ⟨c, rfl, h⟩
    | _ => unfold Fm.seq Fm.lift at h; rw [e] at h; simp at h

theorem ended_noexcept {σ : Supply} {s s' : FmState} {x : Fm} {n : Int} (h : x.noexcept σ s = (.ended n, s')) : x σ s = (.ended n, s') := by
  unfold Fm.noexcept at h
  split at h
  · simp at h
  · exact h

theorem ended_during {σ : Supply} {s s' : FmState} {x : Fm} {e : RErr} {n : Int} (h : Fm.during e x σ s = (.ended n, s')) : x σ s = (.ended n, s') := by
  unfold Fm.during at h
  split at h
  · simp at h
  · simp at h
  · exact h

theorem ended_keep {σ : Supply} {s s' : FmState} {tr : Str} {y : Fm} {n : Int} (h : (keepFirst tr ⨠ y) σ s = (.ended n, s')) :
    ∃ q, y σ { FmState.after s q with first := some (s.first.getD tr) } = (.ended n, s') := by
  obtain ⟨sc, inited, hook, count, first, hooked, cerr, calls, futures⟩ := s
  cases first with
  | some f => exact ⟨sc.req, h⟩
  | none =>
    have e : keepFirst tr σ ⟨sc, inited, hook, count, none, hooked, cerr, calls, futures⟩ =
      (Fm.mem ⨠ Fm.modify fun s => { s with first := some tr }) σ ⟨sc, inited, hook, count, none, hooked, cerr, calls, futures⟩ := rfl
    rcases mem_seq σ ⟨sc, inited, hook, count, none, hooked, cerr, calls, futures⟩ (Fm.modify fun s => { s with first := some tr }) with ⟨_, e2⟩ | ⟨_, e2⟩
    · rw [fseq_ok (e.trans e2)] at h; exact ⟨sc.req + 1, h⟩
    · rw [fseq_threw (e.trans e2)] at h; simp at h

/-- The sinks are the same as before a message was sent to them. -/
theorem sendAll_ok {σ : Supply} {t : Str} : ∀ {l : List Nat} {s c : ScState}, sendAllR t l σ s = (.ok, c) → c.att = s.att ∧ c.live = s.live ∧ c.handles = s.handles ∧ c.made = s.made ∧ c.worker = s.worker
  | [], _, _, h => by
    unfold sendAllR Sc.modify at h
    simp only [id, Prod.mk.injEq, true_and] at h
    rw [← h]; exact ⟨rfl, rfl, rfl, rfl, rfl⟩
  | i :: r, s, c, h => by
    unfold sendAllR at h
    obtain ⟨c1, h1, h2⟩ : ∃ c1, sendOne t i σ s = (.ok, c1) ∧ sendAllR t r σ c1 = (.ok, c) := by
      cases e : sendOne t i σ s with
      | mk x c1 =>
        cases x with
        | ok => rw [seq_ok e] at h; exact ⟨c1, rfl, h⟩
        | threw _ => rw [seq_threw e] at h; simp at h
        | terminated => exact absurd (congrArg Prod.fst h) (by rw [seq_dead (by rw [e])]; simp)
    have ih := sendAll_ok h2
    have : c1.att = s.att ∧ c1.live = s.live ∧ c1.handles = s.handles ∧ c1.made = s.made ∧ c1.worker = s.worker := by
      unfold sendOne at h1
      rcases r_mem σ s with ⟨_, e⟩ | ⟨_, e⟩
      · rw [seq_ok e] at h1
        rcases r_mem σ { s with req := s.req + 1 } with ⟨_, e⟩ | ⟨_, e⟩
        · rw [seq_ok e] at h1
          rcases r_mem σ { s with req := s.req + 1 + 1 } with ⟨_, e⟩ | ⟨_, e⟩
          · rw [noexcept_ok (by rw [seq_ok e]; rfl)] at h1
            simp only [Prod.mk.injEq, true_and] at h1
            rw [← h1]; exact ⟨rfl, rfl, rfl, rfl, rfl⟩
          · exact absurd (congrArg Prod.fst h1) (by rw [noexcept_bad (by rw [seq_threw e]; simp)]; simp)
        · rw [seq_threw e] at h1; simp at h1
      · rw [seq_threw e] at h1; simp at h1
    exact ⟨ih.1.trans this.1, ih.2.1.trans this.2.1, ih.2.2.1.trans this.2.2.1, ih.2.2.2.1.trans this.2.2.2.1, ih.2.2.2.2.trans this.2.2.2.2⟩

/-- What is left when a fatal statement has ended the process by its signal. -/
structure LeftOver (s s' : FmState) : Prop where
  inited : s'.inited = false
  hook : s'.hook = s.hook
  calls : s'.calls = s.calls
  futures : s'.futures = s.futures
  handles : s'.sc.handles = s.sc.handles
  made : s'.sc.made = s.sc.made
  worker : s'.sc.worker = s.sc.worker
  count : s'.count = s.count
  first : s'.first = s.first
  sinks : s'.sc.att = if s.inited then [] else s.sc.att

theorem bg_left {σ : Supply} {s s' : FmState} {d : Deadly} {t : Str} {n : Int} (hs : s.sc.live = s.sc.att) (h : bgFatalR d t σ s = (.ended n, s')) :
    LeftOver { s with inited := true } s' := by
  unfold bgFatalR at h
  rw [fseq_mod] at h
  have h := ended_mem h
  have h := ended_mem h
  have h := ended_mem h
  rw [fseq_mod] at h
  obtain ⟨c, h1, h⟩ := ended_lift h
  have k := sendAll_ok h1
  obtain ⟨c2, h2, h⟩ := ended_lift h
  obtain ⟨r, e | e⟩ := clear_sinks σ c.att c rfl (k.2.1.trans (hs.trans k.1.symm))
  · have e2 := h2.symm.trans e
    simp only [Prod.mk.injEq, true_and] at e2
    unfold Fm.exit at h
    simp only [Prod.mk.injEq] at h
    rw [← h.2, e2]
    exact ⟨rfl, rfl, rfl, rfl, k.2.2.1, k.2.2.2.1, k.2.2.2.2, rfl, rfl, rfl⟩
  · exact absurd (congrArg Prod.fst h2) (by rw [e]; simp)

theorem push_left {σ : Supply} {s s' : FmState} {d : Deadly} {t : Str} {n : Int} (hs : s.sc.live = s.sc.att) (h : pushFatalR d t σ s = (.ended n, s')) : LeftOver s s' := by
  unfold pushFatalR at h
  by_cases hi : s.inited = true
  · simp only [hi, if_true] at h
    have k := bg_left (s := FmState.after s (s.sc.req + 1)) hs (ended_noexcept (ended_mem h))
    exact ⟨k.1, k.2, k.3, k.4, k.5, k.6, k.7, k.8, k.9, by rw [if_pos hi]; exact k.10⟩
  · simp only [Bool.not_eq_true] at hi
    simp only [hi, Bool.false_eq_true, if_false] at h
    have h := ended_mem h
    have h := ended_mem h
    rw [fseq_mod] at h
    unfold Fm.exit at h
    simp only [Prod.mk.injEq] at h
    rw [← h.2]
    exact ⟨hi, rfl, rfl, rfl, rfl, rfl, rfl, rfl, rfl, by rw [if_neg (by simp [hi])]; rfl⟩

/-- **C108**: when a fatal statement ends the process by a signal, logging is shut down, the worker has no sinks any more if logging was initialised, the hook is used up; no call was made. -/
theorem C108_end (σ : Supply) (s s' : FmState) (d : Deadly) (b : Bool) (n : Int) (hs : NoLeak s.sc) (h : fatalR d b σ s = (.ended n, s')) :
    LeftOver (wasted s d) s' := by
  have h : saveDeadly d (inserted σ (FmState.after s (s.sc.req + 2)).sc d.text) σ (FmState.after s (s.sc.req + 3)) = (.ended n, s') := by
    have h := ended_mem (ended_mem h)
    cases b
    · exact h
    · exact ended_during h
  rw [save_parts] at h
  have h := ended_mem (ended_mem h)
  unfold hookPart at h
  rw [fseq_mod] at h
  obtain ⟨q, h⟩ := ended_keep h
  rw [fseq_ok (callHook_eq _ _ _)] at h
  unfold textPart at h
  have h := ended_mem h
  dsimp only at h
  split at h
  · have k := push_left (by exact hs.1) (ended_mem (ended_mem h))
    exact ⟨k.1, k.2, k.3, k.4, k.5, k.6, k.7, k.8, k.9, k.10⟩
  · have k := push_left (by exact hs.1) (ended_mem h)
    exact ⟨k.1, k.2, k.3, k.4, k.5, k.6, k.7, k.8, k.9, k.10⟩

/-! ### Calls -/

/-- **C109**: a call through a handle whose sink is there returns, it has been made once and its result is in the future; or it throws, and has not been made. If the sink is not there it returns a future that holds
`bad_weak_ptr`, or throws. Nothing else changes, and the process lives. It throws only for lack of memory. -/
theorem C109_call (σ : Supply) (s : FmState) (i : Nat) (a : Str) : ∃ k, s.sc.req < k ∧ k ≤ s.sc.req + 2 ∧
    ((callR i a σ s = (.threw .badAlloc, FmState.after s k) ∧ σ.ok (k - 1) = false) ∨
     ((∀ n, s.sc.req ≤ n → n < k → σ.ok n = true) ∧
       callR i a σ s = (.ok, if i ∈ s.sc.live then { FmState.after s k with calls := s.calls ++ [(i, a)], futures := s.futures ++ [some (i, a)] } else { FmState.after s k with futures := s.futures ++ [none] }))) := by
  unfold callR
  by_cases h : i ∈ s.sc.live
  · simp only [if_pos h]
    rcases mem_seq σ s (Fm.mem ⨠ Fm.modify fun s => { s with calls := s.calls ++ [(i, a)], futures := s.futures ++ [some (i, a)] }) with ⟨e, b⟩ | ⟨e, b⟩
    · rw [b]
      rcases mem_seq σ (FmState.after s (s.sc.req + 1)) (Fm.modify fun s => { s with calls := s.calls ++ [(i, a)], futures := s.futures ++ [some (i, a)] }) with ⟨e2, b⟩ | ⟨e2, b⟩
      · refine ⟨s.sc.req + 2, by omega, by omega, Or.inr ⟨fun n h1 h2 => ?_, b⟩⟩
        by_cases c : n = s.sc.req
        · rw [c]; exact e
        · rw [show n = s.sc.req + 1 by omega]; exact e2
      · exact ⟨s.sc.req + 2, by omega, by omega, Or.inl ⟨b, e2⟩⟩
    · exact ⟨s.sc.req + 1, by omega, by omega, Or.inl ⟨b, e⟩⟩
  · simp only [if_neg h]
    rcases mem_seq σ s (Fm.modify fun s => { s with futures := s.futures ++ [none] }) with ⟨e, b⟩ | ⟨e, b⟩
    · refine ⟨s.sc.req + 1, by omega, by omega, Or.inr ⟨fun n h1 h2 => ?_, b⟩⟩
      rw [show n = s.sc.req by omega]; exact e
    · exact ⟨s.sc.req + 1, by omega, by omega, Or.inl ⟨b, e⟩⟩

/-- **C109**, programs: whatever fails, in whatever mixture of calls, LOG and fatal statements, changes of sinks: the calls that have been made are those whose future has a result, in this order. -/
theorem C109_made (σ : Supply) (ops : List FmOp) (h : ∀ o ∈ (fmRun σ .start ops).1, o.over = false) : (fmRun σ .start ops).2.calls = (fmRun σ .start ops).2.futures.filterMap id :=
  (good_run σ ops .start good_start h).2.2

/-! ### Programs with enough memory -/

theorem base_plenty {σ : Supply} (hσ : Plenty σ) (s : ScState) (o : ROp) (hs : NoLeak s) (ha : o.allowed s = true) :
    (o.exec σ s).1 = ROp.normal o ∧ scSeen (o.exec σ s).2 = (scSeen s).step o := by
  have h := C103_partial σ hσ [o] s hs
  have hc : (scSeen s).can o = o.allowed s := by cases o <;> rfl
  have e1 : (scSeen s).ends [o] = [ROp.normal o] := by
    show (if (scSeen s).can o then ROp.normal o :: [] else []) = _
    rw [hc, ha]; rfl
  have e2 : (scSeen s).run [o] = (scSeen s).step o := by
    show (if (scSeen s).can o then (scSeen s).step o else scSeen s) = _
    rw [hc, ha]; rfl
  rw [e1, e2] at h
  cases e : o.exec σ s with
  | mk r s' =>
    have e3 : scRun σ s [o] = ([r], s') := by
      show (if o.allowed s then match o.exec σ s with | (.terminated, s') => ([.terminated], s') | (r, s') => (r :: [], s') else ([], s)) = _
      rw [ha, e]
      cases r <;> rfl
    rw [e3] at h
    exact ⟨(List.cons.inj h.1).1, h.2⟩

theorem lift_plenty {σ : Supply} (hσ : Plenty σ) (s : FmState) (o : ROp) (hs : NoLeak s.sc) (ha : o.allowed s.sc = true) :
    (Fm.lift o.exec σ s).1 = (match ROp.normal o with | .ok => .ok | .threw e => .threw e | .terminated => .terminated) ∧
    fmSeen (Fm.lift o.exec σ s).2 = { fmSeen s with sys := (scSeen s.sc).step o } := by
  obtain ⟨h1, h2⟩ := base_plenty hσ s.sc o hs ha
  cases e : o.exec σ s.sc with
  | mk r c =>
    rw [e] at h1 h2
    unfold Fm.lift
    rw [e]
    simp only at h1 h2
    rw [← h1, ← h2]
    cases r <;> exact ⟨rfl, rfl⟩

/-- No fatal statement has been reached. -/
def Untouched (s : FmState) : Prop := s.count = 0 ∧ s.first = none

theorem fatal_plenty {σ : Supply} (hσ : Plenty σ) (s : FmState) (d : Deadly) (b : Bool) (hs : NoLeak s.sc) (hu : Untouched s) :
    (fatalR d b σ s).1 = ((fmSeen s).step (.fatal d b)).1 ∧ fmSeen (fatalR d b σ s).2 = ((fmSeen s).step (.fatal d b)).2 := by
  have e := C108_exact σ s d b hs
  rw [loss_plenty σ _ _ fun n _ => hσ n] at e
  obtain ⟨e1, e2, e3⟩ := e
  have l := C108_end σ s (fatalR d b σ s).2 d b d.signal hs (Prod.ext e1 rfl)
  refine ⟨e1, ?_⟩
  have ht : fatalText s d d.text = d.text ++ d.trace := by unfold fatalText; rw [if_pos hu.1]
  have hr : fatalReport s d d.text = plainReportOf d := by unfold fatalReport plainReportOf; rw [ht]
  have hw : ∀ k t, worded σ k t = t := fun k t => by unfold worded; rw [if_pos (hσ k)]
  generalize fatalR d b σ s = r at e1 e2 e3 l
  obtain ⟨o, sc, inited, hook, count, first, hooked, cerr, calls, futures⟩ := r
  obtain ⟨req, worker, threads, live, att, handles, made, gone, got⟩ := sc
  obtain ⟨l1, l2, l3, l4, l5, l6, l7, l8, l9, l10⟩ := l
  simp only at l1 l2 l3 l4 l5 l6 l7 l8 l9 l10 e1 e2 e3
  subst l1 l2 l3 l4 l5 l6 l7 l10 e2
  cases hi : s.inited with
  | true =>
    rw [hi] at e3
    simp only [if_true, hw, hr] at e3
    unfold fmSeen FmIdeal.step scSeen wasted
    simp only [hi, if_true, e3.1, e3.2]
  | false =>
    rw [hi] at e3
    simp only [Bool.false_eq_true, if_false, hw] at e3
    unfold fmSeen FmIdeal.step scSeen wasted
    simp only [hi, Bool.false_eq_true, if_false, e3.1, e3.2]
    unfold orphanReport
    rw [hw, ht]

theorem op_plenty {σ : Supply} (hσ : Plenty σ) (s : FmState) (o : FmOp) (hs : FmGood s) (hu : Untouched s) (ha : o.allowed s = true) :
    (o.exec σ s).1 = ((fmSeen s).step o).1 ∧ fmSeen (o.exec σ s).2 = ((fmSeen s).step o).2 ∧ (FmOp.isFatal o = false → Untouched (o.exec σ s).2) := by
  have lu : ∀ x : Sc, Untouched (Fm.lift x σ s).2 := fun x => by rw [(lift_state x σ s).1]; exact hu
  cases o with
  | base o =>
    cases o with
    | destroy =>
      obtain ⟨h1, h2⟩ := lift_plenty hσ s .destroy hs.1 ha
      have e : FmOp.exec (.base .destroy) σ s = (.ok, { (Fm.lift destroyWorker σ s).2 with inited := false }) := by
        have h3 : Fm.lift destroyWorker σ s = (.ok, (Fm.lift destroyWorker σ s).2) := Prod.ext h1 rfl
        exact (fseq_ok h3).trans rfl
      rw [e]
      refine ⟨rfl, ?_, fun _ => lu _⟩
      exact congrArg (fun a : FmIdeal => { a with logging := false }) h2
    | log t b =>
      have ha : (s.inited && (ROp.log t b).allowed s.sc) = true := ha
      rw [Bool.and_eq_true] at ha
      obtain ⟨h1, h2⟩ := lift_plenty hσ s (.log t b) hs.1 ha.2
      exact ⟨h1.trans (by cases b <;> rfl), h2, fun _ => lu _⟩
    | create => obtain ⟨h1, h2⟩ := lift_plenty hσ s .create hs.1 ha; exact ⟨h1, h2, fun _ => lu _⟩
    | add => obtain ⟨h1, h2⟩ := lift_plenty hσ s .add hs.1 ha; exact ⟨h1, h2, fun _ => lu _⟩
    | remove i => obtain ⟨h1, h2⟩ := lift_plenty hσ s (.remove i) hs.1 ha; exact ⟨h1, h2, fun _ => lu _⟩
    | removeAll => obtain ⟨h1, h2⟩ := lift_plenty hσ s .removeAll hs.1 ha; exact ⟨h1, h2, fun _ => lu _⟩
  | init => exact ⟨rfl, rfl, fun _ => ⟨rfl, hu.2⟩⟩
  | shutdown => exact ⟨rfl, rfl, fun _ => hu⟩
  | setHook h =>
    rcases mem_seq σ s (Fm.modify fun s => { s with hook := some h }) with ⟨_, e⟩ | ⟨c, _⟩
    · have e : FmOp.exec (.setHook h) σ s = _ := e
      rw [e]; exact ⟨rfl, rfl, fun _ => hu⟩
    · rw [hσ] at c; cases c
  | call i a =>
    obtain ⟨k, _, _, ⟨_, c⟩ | ⟨_, e⟩⟩ := C109_call σ s i a
    · rw [hσ] at c; cases c
    · have e : FmOp.exec (.call i a) σ s = _ := e
      have hm : i ∈ s.sc.live ↔ i ∈ (fmSeen s).sys.sinks := by rw [hs.1.1]; exact Iff.rfl
      rw [e]
      show _ ∧ _ = (if i ∈ (fmSeen s).sys.sinks then _ else _) ∧ _
      by_cases c : i ∈ s.sc.live
      · simp only [if_pos c, if_pos (hm.1 c)]; exact ⟨rfl, rfl, fun _ => hu⟩
      · simp only [if_neg c, if_neg (fun x => c (hm.2 x))]; exact ⟨rfl, rfl, fun _ => hu⟩
  | fatal d b =>
    obtain ⟨h1, h2⟩ := fatal_plenty hσ s d b hs.1 hu
    exact ⟨h1, h2, fun c => by cases c⟩

/-- **C108**, programs as they are meant: with enough memory each call does what it is for; the first fatal statement ends the program, after the hook last set since logging was initialised has been called, and what it reports goes
to the sinks attached at that moment, or to stderr alone if logging is not initialised. -/
theorem C108_programs (σ : Supply) (hσ : Plenty σ) (ops : List FmOp) :
    (fmRun σ .start ops).1 = (FmIdeal.start.run ops).1 ∧ fmSeen (fmRun σ .start ops).2 = (FmIdeal.start.run ops).2 := by
  have main : ∀ (ops : List FmOp) (s : FmState), FmGood s → Untouched s → (fmRun σ s ops).1 = ((fmSeen s).run ops).1 ∧ fmSeen (fmRun σ s ops).2 = ((fmSeen s).run ops).2 := by
    intro ops
    induction ops with
    | nil => exact fun _ _ _ => ⟨rfl, rfl⟩
    | cons o ops ih =>
      intro s hs hu
      have hc : (fmSeen s).can o = o.allowed s := by
        cases o with
        | base o =>
          cases o with
          | log t b =>
            show s.inited = (s.inited && s.sc.worker)
            cases hi : s.inited
            · rfl
            · rw [hs.2.1 hi]; rfl
          | _ => rfl
        | _ => rfl
      unfold fmRun FmIdeal.run
      rw [hc]
      cases ha : o.allowed s
      · simp only [Bool.false_eq_true, if_false]
        exact ih s hs hu
      · simp only [if_true]
        obtain ⟨h1, h2, h3⟩ := op_plenty hσ s o hs hu ha
        have hov : (o.exec σ s).1.over = FmOp.isFatal o := by
          rw [h1]
          cases o with
          | base o =>
            cases o with
            | log t b => cases b <;> rfl
            | _ => rfl
          | _ => rfl
        rw [hov, ← h1, ← h2]
        cases hf : FmOp.isFatal o
        · simp only [Bool.false_eq_true, if_false]
          have := ih (o.exec σ s).2 (good_exec σ s o hs ha (hov.trans hf)) (h3 hf)
          exact ⟨by rw [this.1], this.2⟩
        · simp only [if_true]; exact ⟨trivial, trivial⟩
  exact main ops .start good_start ⟨rfl, rfl⟩

/-! ### The property is false -/

/-- `LOG(FATAL) << "over"`, and a second one. -/
def lastWords : Deadly := ⟨"over".toList, "<T1>".toList, "FATAL".toList, "SIGABRT".toList, 6, fun t => t⟩
def lastWords2 : Deadly := ⟨"again".toList, "<T2>".toList, "FATAL".toList, "SIGABRT".toList, 6, fun t => t⟩

/-- A program with a sink and a hook; a fatal statement; more. -/
def fatalProgram : List FmOp := [.base .create, .base .add, .init, .setHook 7, .fatal lastWords false, .base (.log "alive".toList false), .fatal lastWords2 false]

/-- The hypotheses of `C108_again`: a fatal statement has failed after its hook was called; logging is shut down and initialised again. -/
example : let r := fmRun (failing 18) .start [.base .create, .base .add, .init, .setHook 7, .fatal lastWords false, .shutdown]
    r.1 = [.ok, .ok, .ok, .ok, .threw .badAlloc, .ok] ∧ r.2.count = 1 ∧ r.2.hooked = [7] ∧ r.2.sc.att = [0] ∧ FmOp.init.allowed r.2 = true ∧ 18 < r.2.sc.req := by
  refine ⟨?_, ?_, ?_, ?_, ?_, ?_⟩ <;> decide +kernel

/-- **C108** is false: without memory for the message the fatal statement throws, and the program goes on and logs; the second fatal statement ends it. If the memory is missing later, the hook is gone: it is never called,
or has been called for the statement that failed, and the report of the second statement says that there was a crash in a crash. Without memory in the worker the process ends by `std::terminate`, without a report. -/
theorem C108_negation :
    (fmRun (failing 15) .start fatalProgram).1 = [.ok, .ok, .ok, .ok, .threw .badAlloc, .ok, .ended 6] ∧
    (fmRun (failing 15) .start fatalProgram).2.hooked = [7] ∧
    (fmRun (failing 15) .start fatalProgram).2.sc.got =
      [(0, "alive".toList), (0, "again<T2>\nExiting after fatal event  (FATAL). Fatal type:  SIGABRT\nLog content flushed successfully to sink\n\n".toList)] ∧
    (fmRun (failing 17) .start fatalProgram).1 = [.ok, .ok, .ok, .ok, .threw .badAlloc, .ok, .ended 6] ∧ (fmRun (failing 17) .start fatalProgram).2.hooked = [] ∧
    (fmRun (failing 18) .start fatalProgram).1 = [.ok, .ok, .ok, .ok, .threw .badAlloc, .ok, .ended 6] ∧ (fmRun (failing 18) .start fatalProgram).2.hooked = [7] ∧
    (fmRun (failing 18) .start fatalProgram).2.sc.got.getLast? = some (0, ("again<T2>\n\n\nWARNING\nA recursive crash detected. It is likely the hook set with 'setFatalPreLoggingHook(...)' is responsible\n\n" ++
      "---First crash stacktrace: <T1>\n---End of first stacktrace\n\nExiting after fatal event  (FATAL). Fatal type:  SIGABRT\nLog content flushed successfully to sink\n\n").toList) ∧
    (fmRun (failing 21) .start fatalProgram).1 = [.ok, .ok, .ok, .ok, .terminated] ∧ (fmRun (failing 21) .start fatalProgram).2.sc.got = [] ∧ (fmRun (failing 21) .start fatalProgram).2.cerr = [] ∧
    (fmRun (failing 15) .start [.base .create, .base .add, .init, .setHook 7, .fatal lastWords true]).1 = [.ok, .ok, .ok, .ok, .terminated] := by
  decide +kernel

/-! ### Examples -/

/-- A state with a sink, a hook and memory enough, and a fatal statement in it. -/
example : ∃ s, NoLeak s.sc ∧ s.inited = true ∧ s.hook = some 7 ∧ s.sc.att = [0] ∧ PlentyFrom (failing 4000) 5000 ∧
    (fatalR lastWords false (failing 4000) s).1 = .ended 6 ∧ firstLoss (failing (s.sc.req + 5)) s.sc.req (planOf s) = some (s.sc.req + 5, .trace) := by
  refine ⟨(fmRun (failing 4000) .start [.base .create, .base .add, .init, .setHook 7]).2, C108_no_leak _ _ (by decide +kernel), by decide +kernel, by decide +kernel, by decide +kernel, ?_, by decide +kernel, by decide +kernel⟩
  intro n hn
  show (!decide (n = 4000)) = true
  simp; omega

/-- Logging, a shutdown in between, two hooks: the second is called, with a new worker. -/
example : (FmIdeal.start.run [.base .create, .base .add, .setHook 5, .init, .setHook 6, .base (.log "a".toList false), .base .destroy, .base (.log "b".toList false), .base .create, .init, .setHook 7, .base .add, .call 0 "x".toList,
      .call 1 "y".toList, .base (.log "c".toList true), .fatal lastWords false, .base (.log "d".toList false)]).1 = [.ok, .ok, .ok, .ok, .ok, .ok, .ok, .ok, .ok, .ok, .ok, .ok, .ok, .threw .user, .ended 6] ∧
    (FmIdeal.start.run [.base .create, .base .add, .setHook 5, .init, .setHook 6, .base (.log "a".toList false), .base .destroy, .base (.log "b".toList false), .base .create, .init, .setHook 7, .base .add, .call 0 "x".toList,
      .call 1 "y".toList, .base (.log "c".toList true), .fatal lastWords false, .base (.log "d".toList false)]).2.hooked = [7] := by decide +kernel

/-- A fatal statement that throws and leaves a mark. -/
example : ∃ s s', NoLeak s.sc ∧ fatalR lastWords false (failing 18) s = (.threw .badAlloc, s') ∧ s'.count ≠ s.count ∧ s.inited = true :=
  ⟨(fmRun (failing 18) .start [.base .create, .base .add, .init, .setHook 7]).2, (fatalR lastWords false (failing 18) (fmRun (failing 18) .start [.base .create, .base .add, .init, .setHook 7]).2).2,
    C108_no_leak _ _ (by decide +kernel), Prod.ext (by decide +kernel) rfl, by decide +kernel, by decide +kernel⟩

/-- Calls before and after the sink is gone, and one without memory. -/
example : (fmRun (failing 20) .start [.base .create, .base .add, .base .add, .call 0 "x".toList, .base (.remove 1), .call 1 "y".toList, .call 0 "z".toList]).1.all (fun o => !o.over) = true ∧
    (let r := (fmRun (failing 19) .start [.base .create, .base .add, .base .add, .call 0 "x".toList, .call 1 "y".toList, .base .removeAll, .call 0 "z".toList]); r.1 = [.ok, .ok, .ok, .threw .badAlloc, .ok, .ok, .ok] ∧
      r.2.calls = [(1, "y".toList)] ∧ r.2.futures = [some (1, "y".toList), none]) := by decide +kernel

end G3.Props
