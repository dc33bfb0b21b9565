import Verif.Spec.InitRetry
import Verif.Props.Signals
/-
Lemmas for C105.
-/
namespace G3.Props
open G3 G3.Spec

theorem try_ok (e : SigEnv) (ok : Nat → Bool) (l : List Int) : ∀ (s : SigState) (k : Nat), (installTry e ok l s k).1 = true →
    (installTry e ok l s k).2.1 = l.foldl (installOne e) s := by
  induction l with
  | nil => intro s k _; rfl
  | cons n r ih =>
    intro s k h
    rw [List.foldl_cons]
    unfold installTry at h ⊢
    by_cases ha : e.accepts n = true
    · simp only [ha, if_true] at h ⊢
      have h1 : installOne e s n = { s with disp := setAt s.disp n .g3log, saved := setAt s.saved n (some (s.disp n)) } := by
        simp [installOne, ha]
      rw [h1]
      cases hs : s.saved n with
      | some d => simp only [hs] at h ⊢; exact ih _ _ h
      | none =>
        simp only [hs] at h ⊢
        by_cases hk : ok k = true
        · simp only [hk, if_true] at h ⊢; exact ih _ _ h
        · simp only [hk, Bool.false_eq_true, if_false] at h
    · have h1 : installOne e s n = s := by simp [installOne, ha]
      rw [h1]
      simp only [ha, Bool.false_eq_true, if_false] at h ⊢
      by_cases hk : ok k = true
      · simp only [hk, if_true] at h ⊢; exact ih _ _ h
      · simp only [hk, Bool.false_eq_true, if_false] at h

theorem try_full (e : SigEnv) (ok : Nat → Bool) (l : List Int) : ∀ (s : SigState) (k : Nat), MemFrom ok k → (installTry e ok l s k).1 = true ∧
    MemFrom ok (installTry e ok l s k).2.2 := by
  induction l with
  | nil => intro s k h; exact ⟨rfl, h⟩
  | cons n r ih =>
    intro s k h
    have hk : ok k = true := h k (Nat.le_refl _)
    have h' : MemFrom ok (k + 1) := fun j hj => h j (by omega)
    unfold installTry
    by_cases ha : e.accepts n = true
    · simp only [ha, if_true]
      cases hs : s.saved n with
      | some d => exact ih _ _ h
      | none => simp only [hk, if_true]; exact ih _ _ h'
    · simp only [ha, Bool.false_eq_true, if_false, hk, if_true]; exact ih _ _ h'

/-- What a loop that throws leaves behind. -/
theorem try_fail (e : SigEnv) (ok : Nat → Bool) (l : List Int) : ∀ (s : SigState) (k : Nat), (installTry e ok l s k).1 = false →
    ∃ p n r, l = p ++ n :: r ∧ (installTry e ok l s k).2.1 =
      if e.accepts n then { p.foldl (installOne e) s with disp := setAt (p.foldl (installOne e) s).disp n .g3log } else p.foldl (installOne e) s := by
  induction l with
  | nil => intro s k h; cases h
  | cons n r ih =>
    intro s k h
    unfold installTry at h ⊢
    by_cases ha : e.accepts n = true
    · simp only [ha, if_true] at h ⊢
      have h1 : installOne e s n = { s with disp := setAt s.disp n .g3log, saved := setAt s.saved n (some (s.disp n)) } := by
        simp [installOne, ha]
      cases hs : s.saved n with
      | some d =>
        simp only [hs] at h ⊢
        obtain ⟨p, x, q, hl, hq⟩ := ih _ _ h
        refine ⟨n :: p, x, q, by rw [hl]; rfl, ?_⟩
        rw [hq, List.foldl_cons, h1]
      | none =>
        simp only [hs] at h ⊢
        by_cases hk : ok k = true
        · simp only [hk, if_true] at h ⊢
          obtain ⟨p, x, q, hl, hq⟩ := ih _ _ h
          refine ⟨n :: p, x, q, by rw [hl]; rfl, ?_⟩
          rw [hq, List.foldl_cons, h1]
        · simp only [hk, Bool.false_eq_true, if_false]
          exact ⟨[], n, r, rfl, by simp [ha]⟩
    · have h1 : installOne e s n = s := by simp [installOne, ha]
      simp only [ha, Bool.false_eq_true, if_false] at h ⊢
      by_cases hk : ok k = true
      · simp only [hk, if_true] at h ⊢
        obtain ⟨p, x, q, hl, hq⟩ := ih _ _ h
        refine ⟨n :: p, x, q, by rw [hl]; rfl, ?_⟩
        rw [hq, List.foldl_cons, h1]
      · simp only [hk, Bool.false_eq_true, if_false]
        exact ⟨[], n, r, rfl, by simp [ha]⟩

/-- The completed loop, signal by signal. -/
theorem fold_install (e : SigEnv) (l : List Int) : l.Nodup → ∀ (s : SigState),
    (l.foldl (installOne e) s).gSignals = s.gSignals ∧
    ∀ x, ((l.foldl (installOne e) s).disp x = if x ∈ l ∧ e.accepts x = true then .g3log else s.disp x) ∧
      ((l.foldl (installOne e) s).saved x = if x ∈ l ∧ e.accepts x = true then some (s.disp x) else s.saved x) := by
  induction l with
  | nil => intro _ s; simp
  | cons n r ih =>
    intro hn s
    obtain ⟨hn1, hn2⟩ := List.nodup_cons.mp hn
    obtain ⟨hg, hx⟩ := ih hn2 (installOne e s n)
    refine ⟨by rw [List.foldl_cons, hg]; unfold installOne; split <;> rfl, fun x => ?_⟩
    rw [List.foldl_cons, (hx x).1, (hx x).2]
    by_cases hxn : x = n
    · subst hxn
      by_cases ha : e.accepts x = true
      · simp [hn1, ha, installOne, setAt]
      · simp [ha, installOne]
    · by_cases hxr : x ∈ r ∧ e.accepts x = true
      · by_cases ha : e.accepts n = true <;> simp [hxr, hxn, installOne, setAt, ha]
      · have : ¬ (x ∈ n :: r ∧ e.accepts x = true) := fun h => hxr ⟨(List.mem_cons.mp h.1).resolve_left hxn, h.2⟩
        rw [if_neg hxr, if_neg this, if_neg hxr, if_neg this]
        by_cases ha : e.accepts n = true <;> simp [hxn, installOne, setAt, ha]

/-- Restoring, signal by signal. -/
theorem fold_restore (e : SigEnv) (ho : e.off = false) (x : Int) (l : List Int) : ∀ (s : SigState),
    (l.foldl (restoreSignalHandler e) s).disp x = if x ∈ l ∧ e.accepts x = true then (s.saved x).getD (s.disp x) else s.disp x := by
  induction l with
  | nil => intro s; simp
  | cons n r ih =>
    intro s
    rw [List.foldl_cons, ih]
    have hr : restoreSignalHandler e s n = match s.saved n with
      | none => s
      | some old => { s with disp := if e.accepts n then setAt s.disp n old else s.disp, saved := setAt s.saved n none } := by
      unfold restoreSignalHandler; rw [ho]; rfl
    rw [hr]
    by_cases hxn : x = n
    · subst hxn
      cases hs : s.saved x with
      | none => simp [hs]
      | some d => by_cases ha : e.accepts x = true <;> simp [ha, setAt]
    · cases hs : s.saved n with
      | none => simp [hxn]
      | some d => by_cases ha : e.accepts n = true <;> simp [ha, setAt, hxn]

theorem calls_succ (e : SigEnv) (ok : Nat → Bool) (w : Nat) : ∀ (c : Nat) (s : InitState) (k : Nat),
    initCalls e ok w (c + 1) s k = if (initCalls e ok w c s k).1 then initCalls e ok w c s k
      else initTry e ok w (initCalls e ok w c s k).2.1 (initCalls e ok w c s k).2.2 := by
  intro c
  induction c with
  | zero =>
    intro s k
    simp only [initCalls, Bool.false_eq_true, if_false]
    split
    · rfl
    · rename_i h
      rw [← Bool.eq_false_iff.mpr h]
  | succ c ih =>
    intro s k
    rw [initCalls]
    by_cases h : (initTry e ok w s k).1 = true
    · rw [if_pos h]
      have : initCalls e ok w (c + 1) s k = initTry e ok w s k := by rw [initCalls, if_pos h]
      rw [this, if_pos h]
    · rw [if_neg h, ih]
      have : initCalls e ok w (c + 1) s k = initCalls e ok w c (initTry e ok w s k).2.1 (initTry e ok w s k).2.2 := by
        rw [initCalls, if_neg h]
      rw [this]

/-- The second half of a call. -/
theorem first_cases (ok : Nat → Bool) (s : InitState) (k : Nat) (hd : s.firstDone = false) :
    ((initFirst ok s k).1 = true ∧ ∃ k', initFirst ok s k = (true, { s with first := none, firstDone := true, handed := s.handed ++ s.first.toList }, k')) ∨
    ((initFirst ok s k).1 = false ∧ s.first ≠ none ∧ ∃ k', initFirst ok s k = (false, { s with first := none }, k')) := by
  unfold initFirst
  rw [hd]
  simp only [Bool.false_eq_true, if_false]
  cases hf : s.first with
  | none =>
    left
    refine ⟨rfl, k, ?_⟩
    simp only [Option.toList, List.append_nil]
  | some m =>
    by_cases h1 : ok k = true
    · by_cases h2 : ok (k + 1) = true
      · left; simp [h1, h2]
      · right; simp [h1, h2]
    · right; simp [h1]

/-- A call: it throws while it installs, it throws while it hands over, or it returns. -/
theorem try_cases (e : SigEnv) (ok : Nat → Bool) (w : Nat) (s : InitState) (k : Nat) (hd : s.firstDone = false) :
    ((initTry e ok w s k).1 = false ∧ s.installed = false ∧ e.off = false ∧ (installTry e ok s.sig.gSignals s.sig k).1 = false ∧
      (initTry e ok w s k).2.1 = { s with sig := (installTry e ok s.sig.gSignals s.sig k).2.1 }) ∨
    ((initTry e ok w s k).1 = false ∧ s.first ≠ none ∧
      (initTry e ok w s k).2.1 = { s with sig := if s.installed then s.sig else installSignalHandler e s.sig, installed := true, first := none }) ∨
    ((initTry e ok w s k).1 = true ∧ (initTry e ok w s k).2.1 = { s with sig := if s.installed then s.sig else installSignalHandler e s.sig, installed := true, first := none, firstDone := true, handed := s.handed ++ s.first.toList, inst := some w }) := by
  have main : ∀ (s1 : InitState) (k1 : Nat), initInstall e ok s k = (true, s1, k1) →
      s1 = { s with sig := if s.installed then s.sig else installSignalHandler e s.sig, installed := true } →
      ((initTry e ok w s k).1 = false ∧ s.first ≠ none ∧
        (initTry e ok w s k).2.1 = { s with sig := if s.installed then s.sig else installSignalHandler e s.sig, installed := true, first := none }) ∨
      ((initTry e ok w s k).1 = true ∧ (initTry e ok w s k).2.1 = { s with sig := if s.installed then s.sig else installSignalHandler e s.sig, installed := true, first := none, firstDone := true, handed := s.handed ++ s.first.toList, inst := some w }) := by
    intro s1 k1 h1 h2
    unfold initTry
    rw [h1]
    dsimp only
    rw [if_pos rfl]
    have hd1 : s1.firstDone = false := by rw [h2]; exact hd
    rcases first_cases ok s1 k1 hd1 with ⟨_, k', h3⟩ | ⟨_, hf, k', h3⟩
    · right; rw [h3]; simp [h2]
    · left
      have : s.first ≠ none := by rw [h2] at hf; exact hf
      rw [h3]; simp [h2, this]
  by_cases hi : s.installed = true
  · right
    refine main s k (by unfold initInstall; rw [if_pos hi]) ?_
    rw [if_pos hi, ← hi]
  · have hi' : s.installed = false := by simpa using hi
    by_cases ho : e.off = true
    · right
      refine main { s with installed := true } k (by unfold initInstall; rw [if_neg hi, if_pos ho]) ?_
      rw [if_neg hi]; unfold installSignalHandler; rw [if_pos ho]
    · have ho' : e.off = false := by simpa using ho
      cases ht : (installTry e ok s.sig.gSignals s.sig k).1 with
      | true =>
        right
        refine main { s with sig := (installTry e ok s.sig.gSignals s.sig k).2.1, installed := true } (installTry e ok s.sig.gSignals s.sig k).2.2
          (by unfold initInstall; rw [if_neg hi, if_neg ho]; dsimp only; rw [ht]) ?_
        rw [if_neg hi, try_ok e ok _ _ _ ht]; unfold installSignalHandler; rw [if_neg ho]
      | false =>
        left
        have hin : initInstall e ok s k = (false, { s with sig := (installTry e ok s.sig.gSignals s.sig k).2.1 }, (installTry e ok s.sig.gSignals s.sig k).2.2) := by
          unfold initInstall; rw [if_neg hi, if_neg ho]; dsimp only; rw [ht, ← hi']
        have htry : initTry e ok w s k = initInstall e ok s k := by unfold initTry; dsimp only; rw [hin]; rfl
        rw [htry, hin]
        exact ⟨rfl, hi', ho', rfl, rfl⟩

/-- What holds after calls that have all thrown. -/
structure RetryInv (e : SigEnv) (ok : Nat → Bool) (w : Nat) (d0 : Int → Disp) (l : List Int) (m : Option Str) (c : Nat) (s : InitState) : Prop where
  gs : s.sig.gSignals = l
  inst : s.inst = none
  handed : s.handed = []
  done : s.firstDone = false
  first : s.first = if s.installed then none else m
  open_ : s.installed = false → (∀ x, s.sig.disp x = .g3log ∨ s.sig.disp x = d0 x) ∧
    (∀ x, ¬ (x ∈ l ∧ e.accepts x = true ∧ e.off = false) → s.sig.disp x = d0 x ∧ s.sig.saved x = none) ∧
    (∀ x, Spoilt e ok w d0 l m c x → s.sig.disp x = .g3log)
  closed : s.installed = true → ∀ x, (s.sig.disp x = if x ∈ l ∧ e.accepts x = true ∧ e.off = false then .g3log else d0 x) ∧
    (¬ (x ∈ l ∧ e.accepts x = true ∧ e.off = false) → s.sig.saved x = none) ∧
    (x ∈ l ∧ e.accepts x = true ∧ e.off = false → (Spoilt e ok w d0 l m c x → s.sig.saved x = some .g3log) ∧ (¬ Spoilt e ok w d0 l m c x → s.sig.saved x = some (d0 x)))

/-- A completed installation after calls that have all thrown in theirs. -/
theorem install_after {e : SigEnv} {ok : Nat → Bool} {w : Nat} {d0 : Int → Disp} {l : List Int} {m : Option Str} {c : Nat} {s : InitState} (hl : l.Nodup)
    (h : RetryInv e ok w d0 l m c s) (hs : s = afterCalls e ok w d0 l m c) (hi : s.installed = false) (x : Int) :
    (installSignalHandler e s.sig).gSignals = l ∧
    ((installSignalHandler e s.sig).disp x = if x ∈ l ∧ e.accepts x = true ∧ e.off = false then .g3log else d0 x) ∧
    (¬ (x ∈ l ∧ e.accepts x = true ∧ e.off = false) → (installSignalHandler e s.sig).saved x = none) ∧
    (x ∈ l ∧ e.accepts x = true ∧ e.off = false → (Spoilt e ok w d0 l m c x → (installSignalHandler e s.sig).saved x = some .g3log) ∧
      (¬ Spoilt e ok w d0 l m c x → (installSignalHandler e s.sig).saved x = some (d0 x))) := by
  obtain ⟨o1, o2, o3⟩ := h.open_ hi
  unfold installSignalHandler
  by_cases ho : e.off = true
  · rw [if_pos ho]
    have hx : ¬ (x ∈ l ∧ e.accepts x = true ∧ e.off = false) := fun hh => by rw [ho] at hh; exact absurd hh.2.2 (by decide)
    refine ⟨h.gs, by rw [if_neg hx]; exact (o2 x hx).1, fun _ => (o2 x hx).2, fun hh => absurd hh hx⟩
  · have ho' : e.off = false := by simpa using ho
    rw [if_neg ho, h.gs]
    obtain ⟨f1, f2⟩ := fold_install e l hl s.sig
    have hiff : (x ∈ l ∧ e.accepts x = true ∧ e.off = false) ↔ (x ∈ l ∧ e.accepts x = true) := by simp [ho']
    by_cases hx : x ∈ l ∧ e.accepts x = true
    · have hx' := hiff.mpr hx
      rw [(f2 x).1, (f2 x).2, if_pos hx, if_pos hx, if_pos hx']
      refine ⟨f1.trans h.gs, rfl, fun hn => absurd hx' hn, fun _ => ⟨fun hsp => by rw [o3 x hsp], fun hsp => ?_⟩⟩
      rcases o1 x with hg | hg
      · exact absurd ⟨c, Nat.le_refl c, by rw [← hs]; exact hi, by rw [← hs]; exact hg⟩ hsp
      · rw [hg]
    · have hx' : ¬ (x ∈ l ∧ e.accepts x = true ∧ e.off = false) := fun hh => hx (hiff.mp hh)
      rw [(f2 x).1, (f2 x).2, if_neg hx, if_neg hx, if_neg hx']
      exact ⟨f1.trans h.gs, (o2 x hx').1, fun _ => (o2 x hx').2, fun hh => absurd hh hx'⟩

theorem Spoilt.mono {e : SigEnv} {ok : Nat → Bool} {w : Nat} {d0 : Int → Disp} {l : List Int} {m : Option Str} {c : Nat} {x : Int}
    (h : Spoilt e ok w d0 l m c x) : Spoilt e ok w d0 l m (c + 1) x := by
  obtain ⟨i, h1, h2⟩ := h
  exact ⟨i, by omega, h2⟩

theorem allThrow_pred {e : SigEnv} {ok : Nat → Bool} {w : Nat} {d0 : Int → Disp} {l : List Int} {m : Option Str} {c : Nat}
    (h : AllThrow e ok w d0 l m (c + 1)) : AllThrow e ok w d0 l m c ∧
    (initTry e ok w (afterCalls e ok w d0 l m c) (initCalls e ok w c (InitState.start d0 l m) 0).2.2).1 = false ∧
    afterCalls e ok w d0 l m (c + 1) = (initTry e ok w (afterCalls e ok w d0 l m c) (initCalls e ok w c (InitState.start d0 l m) 0).2.2).2.1 := by
  unfold AllThrow at h ⊢
  unfold afterCalls
  rw [calls_succ] at h ⊢
  by_cases hc : (initCalls e ok w c (InitState.start d0 l m) 0).1 = true
  · rw [if_pos hc, hc] at h; cases h
  · rw [if_neg hc] at h ⊢
    exact ⟨by simpa using hc, h, rfl⟩

theorem retry_inv (e : SigEnv) (ok : Nat → Bool) (w : Nat) (d0 : Int → Disp) (l : List Int) (hl : l.Nodup) (m : Option Str) (c : Nat) :
    AllThrow e ok w d0 l m c → RetryInv e ok w d0 l m c (afterCalls e ok w d0 l m c) := by
  induction c with
  | zero =>
    intro _
    refine ⟨rfl, rfl, rfl, rfl, rfl, fun _ => ⟨fun x => Or.inr rfl, fun x _ => ⟨rfl, rfl⟩, ?_⟩, fun h => by cases h⟩
    rintro x ⟨i, hi, _, h⟩
    have : i = 0 := by omega
    subst this; exact h
  | succ c ih =>
    intro h
    obtain ⟨h1, h2, h3⟩ := allThrow_pred h
    have inv := ih h1
    have hnew : ∀ x, (afterCalls e ok w d0 l m (c + 1)).installed = true → (Spoilt e ok w d0 l m (c + 1) x ↔ Spoilt e ok w d0 l m c x) := by
      intro x hi
      constructor
      · rintro ⟨i, h4, h5, h6⟩
        rcases Nat.lt_or_ge i (c + 1) with hlt | hge
        · exact ⟨i, by omega, h5, h6⟩
        · have : i = c + 1 := by omega
          subst this; rw [hi] at h5; cases h5
      · exact Spoilt.mono
    generalize hk : (initCalls e ok w c (InitState.start d0 l m) 0).2.2 = k at h2 h3
    rcases try_cases e ok w (afterCalls e ok w d0 l m c) k inv.done with ⟨_, hi, ho, ht, hs⟩ | ⟨_, hf, hs⟩ | ⟨ht, _⟩
    · rw [hs] at h3
      obtain ⟨o1, o2, o3⟩ := inv.open_ hi
      obtain ⟨p, n, r, hp, hq⟩ := try_fail e ok _ _ _ ht
      rw [inv.gs] at hp hq
      have hpl : p.Nodup := by rw [hp] at hl; exact (List.nodup_append.mp hl).1
      have hnl : n ∈ l := by rw [hp]; simp
      have hps : ∀ x ∈ p, x ∈ l := fun x hx => by rw [hp]; simp [hx]
      obtain ⟨f1, f2⟩ := fold_install e p hpl (afterCalls e ok w d0 l m c).sig
      have hdisp : ∀ x, (afterCalls e ok w d0 l m (c + 1)).sig.disp x =
          if (x ∈ p ∨ x = n) ∧ e.accepts x = true then .g3log else (afterCalls e ok w d0 l m c).sig.disp x := by
        intro x
        rw [h3]
        show (installTry e ok (afterCalls e ok w d0 l m c).sig.gSignals (afterCalls e ok w d0 l m c).sig k).2.1.disp x = _
        rw [inv.gs, hq]
        by_cases ha : e.accepts n = true
        · rw [if_pos ha]
          show setAt (p.foldl (installOne e) (afterCalls e ok w d0 l m c).sig).disp n .g3log x = _
          by_cases hx : x = n
          · subst hx; simp [setAt, ha]
          · rw [setAt_other _ _ hx, (f2 x).1]; simp [hx]
        · rw [if_neg ha, (f2 x).1]
          by_cases hx : x = n
          · subst hx; simp [ha]
          · simp [hx]
      have hsaved : ∀ x, ¬ (x ∈ l ∧ e.accepts x = true ∧ e.off = false) → (afterCalls e ok w d0 l m (c + 1)).sig.saved x = none := by
        intro x hx
        rw [h3]
        show (installTry e ok (afterCalls e ok w d0 l m c).sig.gSignals (afterCalls e ok w d0 l m c).sig k).2.1.saved x = _
        rw [inv.gs, hq]
        have : (p.foldl (installOne e) (afterCalls e ok w d0 l m c).sig).saved x = none := by
          rw [(f2 x).2, if_neg (fun hh => hx ⟨hps x hh.1, hh.2, ho⟩)]
          exact (o2 x hx).2
        split <;> exact this
      have hgs : (afterCalls e ok w d0 l m (c + 1)).sig.gSignals = l := by
        rw [h3]
        show (installTry e ok (afterCalls e ok w d0 l m c).sig.gSignals (afterCalls e ok w d0 l m c).sig k).2.1.gSignals = _
        rw [inv.gs, hq]
        split <;> exact f1.trans inv.gs
      have hins : (afterCalls e ok w d0 l m (c + 1)).installed = false := by rw [h3]; exact hi
      refine ⟨hgs, by rw [h3]; exact inv.inst, by rw [h3]; exact inv.handed, by rw [h3]; exact inv.done, ?_, fun _ => ⟨?_, ?_, ?_⟩, fun hh => by rw [hins] at hh; cases hh⟩
      · rw [hins, h3]
        show (afterCalls e ok w d0 l m c).first = _
        rw [inv.first, hi]
      · intro x; rw [hdisp]; split
        · exact Or.inl rfl
        · exact o1 x
      · intro x hx
        refine ⟨?_, hsaved x hx⟩
        rw [hdisp, if_neg (fun hh => hx ⟨hh.1.elim (hps x) (fun he => he ▸ hnl), hh.2, ho⟩)]
        exact (o2 x hx).1
      · rintro x ⟨i, hle, hi1, hi2⟩
        rcases Nat.lt_or_ge i (c + 1) with hlt | hge
        · rw [hdisp, o3 x ⟨i, by omega, hi1, hi2⟩]; simp
        · have : i = c + 1 := by omega
          subst this; exact hi2
    · have hi : (afterCalls e ok w d0 l m c).installed = false := by
        cases hc : (afterCalls e ok w d0 l m c).installed with
        | false => rfl
        | true => rw [inv.first, hc] at hf; exact absurd rfl hf
      rw [hs] at h3
      have hsig : (afterCalls e ok w d0 l m (c + 1)).sig = installSignalHandler e (afterCalls e ok w d0 l m c).sig := by
        rw [h3]; show (if (afterCalls e ok w d0 l m c).installed = true then _ else _) = _; rw [hi]; rfl
      have hins : (afterCalls e ok w d0 l m (c + 1)).installed = true := by rw [h3]
      refine ⟨by rw [hsig]; exact (install_after hl inv rfl hi 0).1, by rw [h3]; exact inv.inst, by rw [h3]; exact inv.handed, by rw [h3]; exact inv.done, ?_,
        fun hh => (by rw [hins] at hh; cases hh), ?_⟩
      · rw [hins, h3]; rfl
      · intro _ x
        rw [hsig]
        obtain ⟨_, a, b, d⟩ := install_after hl inv rfl hi x
        exact ⟨a, b, fun hx => ⟨fun hsp => (d hx).1 ((hnew x hins).mp hsp), fun hsp => (d hx).2 (fun hh => hsp ((hnew x hins).mpr hh))⟩⟩
    · rw [ht] at h2; cases h2

end G3.Props
