import Verif.Proofs.InitRetry
/-
C105: calling `initializeLogging` again after it has thrown for lack of memory.
-/
namespace G3.Props
open G3 G3.Spec

/-- A fresh table: one request for each signal. -/
theorem try_fresh (e : SigEnv) (ok : Nat → Bool) (l : List Int) : l.Nodup → ∀ (s : SigState) (k : Nat), (∀ x ∈ l, s.saved x = none) →
    (∀ i, i < l.length → ok (k + i) = true) → (installTry e ok l s k).1 = true ∧ (installTry e ok l s k).2.2 = k + l.length := by
  induction l with
  | nil => intro _ s k _ _; exact ⟨rfl, rfl⟩
  | cons n r ih =>
    intro hn s k hs hk
    obtain ⟨hn1, hn2⟩ := List.nodup_cons.mp hn
    have hk0 : ok k = true := hk 0 (by simp)
    have hk1 : ∀ i, i < r.length → ok (k + 1 + i) = true := fun i hi => by
      have := hk (i + 1) (by simp; omega)
      rwa [show k + (i + 1) = k + 1 + i by omega] at this
    have hlen : k + (n :: r).length = k + 1 + r.length := by simp; omega
    rw [hlen]
    unfold installTry
    by_cases ha : e.accepts n = true
    · simp only [ha, if_true, hs n (by simp), hk0]
      refine ih hn2 _ _ (fun x hx => ?_) hk1
      show setAt s.saved n _ x = none
      rw [setAt_other _ _ (show x ≠ n from fun he => hn1 (he ▸ hx))]
      exact hs x (by simp [hx])
    · simp only [ha, Bool.false_eq_true, if_false, hk0, if_true]
      exact ih hn2 _ _ (fun x hx => hs x (by simp [hx])) hk1

/-- A fresh table and the request for signal number `j` fails. -/
theorem try_stop (e : SigEnv) (ok : Nat → Bool) (l : List Int) : l.Nodup → ∀ (s : SigState) (k j : Nat), (∀ x ∈ l, s.saved x = none) → j < l.length →
    (∀ i, i < j → ok (k + i) = true) → ok (k + j) = false → (installTry e ok l s k).1 = false ∧ (installTry e ok l s k).2.2 = k + j + 1 ∧
      ∀ x, (installTry e ok l s k).2.1.disp x = if x ∈ l.take (j + 1) ∧ e.accepts x = true then .g3log else s.disp x := by
  induction l with
  | nil => intro _ s k j _ hj; simp at hj
  | cons n r ih =>
    intro hn s k j hs hj hk hf
    obtain ⟨hn1, hn2⟩ := List.nodup_cons.mp hn
    cases j with
    | zero =>
      rw [Nat.add_zero] at hf
      unfold installTry
      by_cases ha : e.accepts n = true
      · simp only [ha, if_true, hs n (by simp), hf, Bool.false_eq_true, if_false]
        refine ⟨trivial, trivial, fun x => ?_⟩
        by_cases hx : x = n
        · subst hx; simp [setAt, ha]
        · simp [setAt, hx]
      · simp only [ha, Bool.false_eq_true, if_false, hf]
        refine ⟨trivial, trivial, fun x => ?_⟩
        by_cases hx : x = n
        · subst hx; simp [ha]
        · simp [hx]
    | succ j =>
      have hk0 : ok k = true := hk 0 (by omega)
      have hk1 : ∀ i, i < j → ok (k + 1 + i) = true := fun i hi => by
        have := hk (i + 1) (by omega)
        rwa [show k + (i + 1) = k + 1 + i by omega] at this
      have hf1 : ok (k + 1 + j) = false := by rwa [show k + (j + 1) = k + 1 + j by omega] at hf
      have hj1 : j < r.length := by simpa using hj
      rw [show k + (j + 1) + 1 = k + 1 + j + 1 by omega]
      unfold installTry
      by_cases ha : e.accepts n = true
      · simp only [ha, if_true, hs n (by simp), hk0]
        have hs1 : ∀ x ∈ r, ({ s with disp := setAt s.disp n .g3log, saved := setAt s.saved n (some (s.disp n)) } : SigState).saved x = none := by
          intro x hx
          show setAt s.saved n _ x = none
          rw [setAt_other _ _ (show x ≠ n from fun he => hn1 (he ▸ hx))]
          exact hs x (by simp [hx])
        obtain ⟨a, b, c⟩ := ih hn2 _ (k + 1) j hs1 hj1 hk1 hf1
        refine ⟨a, b, fun x => ?_⟩
        rw [c x]
        by_cases hx : x = n
        · subst hx; simp [setAt, ha]
        · simp [setAt, hx]
      · simp only [ha, Bool.false_eq_true, if_false, hk0, if_true]
        obtain ⟨a, b, c⟩ := ih hn2 s (k + 1) j (fun x hx => hs x (by simp [hx])) hj1 hk1 hf1
        refine ⟨a, b, fun x => ?_⟩
        rw [c x]
        by_cases hx : x = n
        · subst hx; simp [ha]
        · simp [hx]

theorem returnsAt_state {e : SigEnv} {ok : Nat → Bool} {w : Nat} {d0 : Int → Disp} {l : List Int} {m : Option Str} {c : Nat}
    (hl : l.Nodup) (h : ReturnsAt e ok w d0 l m c) :
    RetryInv e ok w d0 l m c (afterCalls e ok w d0 l m c) ∧
    (afterCalls e ok w d0 l m (c + 1)).sig = (if (afterCalls e ok w d0 l m c).installed then (afterCalls e ok w d0 l m c).sig
      else installSignalHandler e (afterCalls e ok w d0 l m c).sig) ∧
    (afterCalls e ok w d0 l m (c + 1)).handed = (if (afterCalls e ok w d0 l m c).installed then none else m).toList ∧
    (afterCalls e ok w d0 l m (c + 1)).inst = some w := by
  have inv := retry_inv e ok w d0 l hl m c h.1
  have h1 := h.1
  have h2 := h.2
  unfold AllThrow at h1
  have h3 : initCalls e ok w (c + 1) (InitState.start d0 l m) 0 =
      initTry e ok w (afterCalls e ok w d0 l m c) (initCalls e ok w c (InitState.start d0 l m) 0).2.2 := by
    rw [calls_succ, h1]; rfl
  rw [h3] at h2
  have h4 : afterCalls e ok w d0 l m (c + 1) = (initTry e ok w (afterCalls e ok w d0 l m c) (initCalls e ok w c (InitState.start d0 l m) 0).2.2).2.1 := by
    rw [← h3]; rfl
  rcases try_cases e ok w (afterCalls e ok w d0 l m c) (initCalls e ok w c (InitState.start d0 l m) 0).2.2 inv.done with ⟨ht, _⟩ | ⟨ht, _⟩ | ⟨_, hs⟩
  · rw [ht] at h2; cases h2
  · rw [ht] at h2; cases h2
  · rw [h4, hs]
    refine ⟨inv, rfl, ?_, rfl⟩
    show (afterCalls e ok w d0 l m c).handed ++ (afterCalls e ok w d0 l m c).first.toList = _
    rw [inv.handed, inv.first]; rfl

/-- C105: as long as every call has thrown, no worker is in use, and none has been given a message. -/
theorem C105_throws (e : SigEnv) (ok : Nat → Bool) (w : Nat) (d0 : Int → Disp) (l : List Int) (hl : l.Nodup) (m : Option Str) (c : Nat)
    (h : AllThrow e ok w d0 l m c) : (afterCalls e ok w d0 l m c).inst = none ∧ (afterCalls e ok w d0 l m c).handed = [] :=
  ⟨(retry_inv e ok w d0 l hl m c h).inst, (retry_inv e ok w d0 l hl m c h).handed⟩

/-- C105: once there is memory again, the next call returns. -/
theorem C105_memory_back (e : SigEnv) (ok : Nat → Bool) (w : Nat) (d0 : Int → Disp) (l : List Int) (hl : l.Nodup) (m : Option Str) (c : Nat)
    (h : AllThrow e ok w d0 l m c) (hm : MemFrom ok (initCalls e ok w c (InitState.start d0 l m) 0).2.2) : ReturnsAt e ok w d0 l m c := by
  refine ⟨h, ?_⟩
  have inv := retry_inv e ok w d0 l hl m c h
  rw [calls_succ]
  unfold AllThrow at h
  rw [h]
  simp only [Bool.false_eq_true, if_false]
  change (initTry e ok w (afterCalls e ok w d0 l m c) _).1 = true
  generalize (initCalls e ok w c (InitState.start d0 l m) 0).2.2 = k at hm ⊢
  have hin : (initInstall e ok (afterCalls e ok w d0 l m c) k).1 = true ∧ MemFrom ok (initInstall e ok (afterCalls e ok w d0 l m c) k).2.2 ∧
      (initInstall e ok (afterCalls e ok w d0 l m c) k).2.1.firstDone = false := by
    unfold initInstall
    by_cases hi : (afterCalls e ok w d0 l m c).installed = true
    · rw [if_pos hi]; exact ⟨rfl, hm, inv.done⟩
    · rw [if_neg hi]
      by_cases ho : e.off = true
      · rw [if_pos ho]; exact ⟨rfl, hm, inv.done⟩
      · rw [if_neg ho]; exact ⟨(try_full e ok _ _ k hm).1, (try_full e ok _ _ k hm).2, inv.done⟩
  unfold initTry
  dsimp only
  rw [if_pos hin.1]
  generalize initInstall e ok (afterCalls e ok w d0 l m c) k = a at hin ⊢
  have hb : (initFirst ok a.2.1 a.2.2).1 = true := by
    unfold initFirst
    rw [hin.2.2]
    simp only [Bool.false_eq_true, if_false]
    cases a.2.1.first with
    | none => rfl
    | some x => simp [hin.2.1 a.2.2 (Nat.le_refl _), hin.2.1 (a.2.2 + 1) (by omega)]
  rw [if_pos hb]

/-- C105, exactly: after the first call that returns every signal of the set that the kernel lets be caught is ours, the worker is in use, and an ending process restores each signal's former disposition except those whose handler an earlier call
had installed before it threw: for these it "restores" our own handler. The first message is with the worker unless an earlier call threw after it had installed all handlers. -/
theorem C105_retry (e : SigEnv) (ok : Nat → Bool) (w : Nat) (d0 : Int → Disp) (hd : ∀ x, d0 x ≠ .g3log) (l : List Int) (hl : l.Nodup) (m : Option Str) (c : Nat)
    (h : ReturnsAt e ok w d0 l m c) :
    (∀ x, (afterCalls e ok w d0 l m (c + 1)).sig.disp x = if x ∈ l ∧ e.accepts x = true ∧ e.off = false then .g3log else d0 x) ∧
    (∀ x, Spoilt e ok w d0 l m c x → (restoreAll e (afterCalls e ok w d0 l m (c + 1)).sig).disp x = .g3log) ∧
    (∀ x, ¬ Spoilt e ok w d0 l m c x → (restoreAll e (afterCalls e ok w d0 l m (c + 1)).sig).disp x = d0 x) ∧
    (afterCalls e ok w d0 l m (c + 1)).handed = (if (afterCalls e ok w d0 l m c).installed then [] else m.toList) ∧
    (afterCalls e ok w d0 l m (c + 1)).inst = some w := by
  obtain ⟨inv, hsig, hh, hin⟩ := returnsAt_state hl h
  have core : (afterCalls e ok w d0 l m (c + 1)).sig.gSignals = l ∧ ∀ x,
      ((afterCalls e ok w d0 l m (c + 1)).sig.disp x = if x ∈ l ∧ e.accepts x = true ∧ e.off = false then .g3log else d0 x) ∧
      (¬ (x ∈ l ∧ e.accepts x = true ∧ e.off = false) → (afterCalls e ok w d0 l m (c + 1)).sig.saved x = none) ∧
      (x ∈ l ∧ e.accepts x = true ∧ e.off = false → (Spoilt e ok w d0 l m c x → (afterCalls e ok w d0 l m (c + 1)).sig.saved x = some .g3log) ∧
        (¬ Spoilt e ok w d0 l m c x → (afterCalls e ok w d0 l m (c + 1)).sig.saved x = some (d0 x))) := by
    rw [hsig]
    cases hi : (afterCalls e ok w d0 l m c).installed with
    | true => exact ⟨inv.gs, inv.closed hi⟩
    | false => exact ⟨(install_after hl inv rfl hi 0).1, fun x => (install_after hl inv rfl hi x).2⟩
  have hrest : ∀ x, (restoreAll e (afterCalls e ok w d0 l m (c + 1)).sig).disp x =
      if x ∈ l ∧ e.accepts x = true ∧ e.off = false then ((afterCalls e ok w d0 l m (c + 1)).sig.saved x).getD .g3log else d0 x := by
    intro x
    by_cases ho : e.off = true
    · have hno : ¬ (x ∈ l ∧ e.accepts x = true ∧ e.off = false) := fun hx => by rw [ho] at hx; exact absurd hx.2.2 (by decide)
      rw [if_neg hno]
      have : ∀ (q : List Int) (s : SigState), q.foldl (restoreSignalHandler e) s = s := by
        intro q
        induction q with
        | nil => intro s; rfl
        | cons a q ih => intro s; rw [List.foldl_cons, ih]; unfold restoreSignalHandler; rw [if_pos ho]
      unfold restoreAll
      rw [this, (core.2 x).1, if_neg hno]
    · have ho' : e.off = false := by simpa using ho
      unfold restoreAll
      rw [core.1, fold_restore e ho' x l]
      by_cases hx : x ∈ l ∧ e.accepts x = true
      · have hx' : x ∈ l ∧ e.accepts x = true ∧ e.off = false := ⟨hx.1, hx.2, ho'⟩
        rw [if_pos hx, if_pos hx', (core.2 x).1, if_pos hx']
      · have hx' : ¬ (x ∈ l ∧ e.accepts x = true ∧ e.off = false) := fun hh => hx ⟨hh.1, hh.2.1⟩
        rw [if_neg hx, if_neg hx', (core.2 x).1, if_neg hx']
  have honly : ∀ x, Spoilt e ok w d0 l m c x → x ∈ l ∧ e.accepts x = true ∧ e.off = false := by
    rintro x ⟨i, hi, h1, h2⟩
    by_contra hx
    have hthrow : ∀ n, AllThrow e ok w d0 l m (i + n) → AllThrow e ok w d0 l m i := by
      intro n
      induction n with
      | zero => exact id
      | succ n ih => intro hh; exact ih (allThrow_pred hh).1
    have hi' : AllThrow e ok w d0 l m i := hthrow (c - i) (by rw [show i + (c - i) = c by omega]; exact h.1)
    have := (((retry_inv e ok w d0 l hl m i hi').open_ h1).2.1 x hx).1
    exact hd x (this ▸ h2)
  refine ⟨fun x => (core.2 x).1, fun x hx => ?_, fun x hx => ?_, ?_, hin⟩
  · have := honly x hx
    rw [hrest, if_pos this, (((core.2 x).2.2) this).1 hx]; rfl
  · rw [hrest]
    by_cases ht : x ∈ l ∧ e.accepts x = true ∧ e.off = false
    · rw [if_pos ht, (((core.2 x).2.2) ht).2 hx]; rfl
    · rw [if_neg ht]
  · rw [hh]; split <;> rfl

/-- C105: the process is as it should be after the first call that returns exactly if no earlier call got as far as installing a handler. -/
theorem C105_exact (e : SigEnv) (ok : Nat → Bool) (w : Nat) (d0 : Int → Disp) (hd : ∀ x, d0 x ≠ .g3log) (l : List Int) (hl : l.Nodup) (m : Str) (c : Nat)
    (h : ReturnsAt e ok w d0 l (some m) c) : Ready e w d0 l (some m) (afterCalls e ok w d0 l (some m) (c + 1)) ↔
      (∀ x, ¬ Spoilt e ok w d0 l (some m) c x) ∧ (afterCalls e ok w d0 l (some m) c).installed = false := by
  obtain ⟨h1, h2, h3, h4, h5⟩ := C105_retry e ok w d0 hd l hl (some m) c h
  constructor
  · intro r
    refine ⟨fun x hx => hd x ((r.restores x).symm.trans (h2 x hx)), ?_⟩
    have := r.message
    rw [h4] at this
    cases hi : (afterCalls e ok w d0 l (some m) c).installed with
    | false => rfl
    | true => rw [hi] at this; simp at this
  · rintro ⟨a, b⟩
    exact ⟨h1, fun x => h3 x (a x), by rw [h4, b]; rfl, h5⟩

/-- C105, the part that holds: with memory for every request the first call returns and the process is as it should be. -/
theorem C105_partial (e : SigEnv) (ok : Nat → Bool) (w : Nat) (d0 : Int → Disp) (hd : ∀ x, d0 x ≠ .g3log) (l : List Int) (hl : l.Nodup) (m : Option Str)
    (hm : MemFrom ok 0) : ReturnsAt e ok w d0 l m 0 ∧ Ready e w d0 l m (afterCalls e ok w d0 l m 1) := by
  have h := C105_memory_back e ok w d0 l hl m 0 rfl hm
  obtain ⟨h1, h2, h3, h4, h5⟩ := C105_retry e ok w d0 hd l hl m 0 h
  refine ⟨h, h1, fun x => h3 x ?_, h4, h5⟩
  rintro ⟨i, hi, _, hx⟩
  have : i = 0 := by omega
  subst this
  exact hd x hx

/-- C105, how such a process ends. A fatal signal that is one of those hangs the process for ever; LOG(FATAL), which ends by SIGABRT, makes it exit with a code instead of dying by the signal. The others end it as they should. -/
theorem C105_exit (e : SigEnv) (ok : Nat → Bool) (r : RaiseEnv) (w : Nat) (d0 : Int → Disp) (hd : ∀ x, d0 x ≠ .g3log) (l : List Int) (hl : l.Nodup) (m : Option Str) (c : Nat)
    (h : ReturnsAt e ok w d0 l m c) (n : Int) (k : Nat) :
    (Spoilt e ok w d0 l m c n → (exitWithDefaultSignalHandler e r ⟨(afterCalls e ok w d0 l m (c + 1)).sig, k + 1, true⟩ n).1 = .hang ∧
      (exitWithDefaultSignalHandler e r ⟨(afterCalls e ok w d0 l m (c + 1)).sig, 0, true⟩ n).1 = .exited n) ∧
    (¬ Spoilt e ok w d0 l m c n → d0 n = .dfl → r.dflEnds n = true →
      (exitWithDefaultSignalHandler e r ⟨(afterCalls e ok w d0 l m (c + 1)).sig, k, true⟩ n).1 = .killed n) := by
  obtain ⟨_, h2, h3, _, _⟩ := C105_retry e ok w d0 hd l hl m c h
  refine ⟨fun hs => ⟨?_, ?_⟩, fun hs hdfl hr => ?_⟩
  · unfold exitWithDefaultSignalHandler
    simp only [h2 n hs]
    unfold signalHandlerAtExit
    rw [if_pos ⟨(by show k + 1 ≠ 0; omega), rfl⟩]
  · unfold exitWithDefaultSignalHandler
    simp only [h2 n hs]
    unfold signalHandlerAtExit
    rw [if_neg (by simp)]
    rfl
  · unfold exitWithDefaultSignalHandler
    simp only [h3 n hs, hdfl, hr, if_true]

/-- C105, one failing request. If it is one of those made for the signals, the call after it returns, and spoilt are the signals up to the one it was made for; the first message arrives. If it is one of the two made for the first message, the call after
it returns, no signal is spoilt, and the message never arrives. -/
theorem C105_one_request (e : SigEnv) (ho : e.off = false) (w : Nat) (d0 : Int → Disp) (hd : ∀ x, d0 x ≠ .g3log) (l : List Int) (hl : l.Nodup) (m : Str) (j : Nat) :
    (j < l.length → ReturnsAt e (onlyFails j) w d0 l (some m) 1 ∧ (∀ x, Spoilt e (onlyFails j) w d0 l (some m) 1 x ↔ x ∈ l.take (j + 1) ∧ e.accepts x = true) ∧
      (afterCalls e (onlyFails j) w d0 l (some m) 2).handed = [m]) ∧
    (l.length ≤ j → j < l.length + 2 → ReturnsAt e (onlyFails j) w d0 l (some m) 1 ∧ (∀ x, ¬ Spoilt e (onlyFails j) w d0 l (some m) 1 x) ∧
      (afterCalls e (onlyFails j) w d0 l (some m) 2).handed = []) ∧
    (l.length + 2 ≤ j → ReturnsAt e (onlyFails j) w d0 l (some m) 0 ∧ Ready e w d0 l (some m) (afterCalls e (onlyFails j) w d0 l (some m) 1)) := by
  have hcall : ∀ ok : Nat → Bool, initCalls e ok w 1 (InitState.start d0 l (some m)) 0 = initTry e ok w (InitState.start d0 l (some m)) 0 := by
    intro ok
    rw [calls_succ]
    rfl
  have hzero : ∀ ok : Nat → Bool, ∀ x, ¬ Spoilt e ok w d0 l (some m) 0 x := by
    rintro ok x ⟨i, hi, _, hx⟩
    have : i = 0 := by omega
    subst this
    exact hd x hx
  have hmem : ∀ i, i ≠ j → onlyFails j i = true := fun i hi => by simp [onlyFails, hi]
  have hno : onlyFails j j = false := by simp [onlyFails]
  have hinst : ∀ ok : Nat → Bool, initInstall e ok (InitState.start d0 l (some m)) 0 =
      ((installTry e ok l ⟨d0, fun _ => none, l⟩ 0).1, { InitState.start d0 l (some m) with sig := (installTry e ok l ⟨d0, fun _ => none, l⟩ 0).2.1, installed := (installTry e ok l ⟨d0, fun _ => none, l⟩ 0).1 },
        (installTry e ok l ⟨d0, fun _ => none, l⟩ 0).2.2) := by
    intro ok
    unfold initInstall
    rw [ho]
    rfl
  refine ⟨fun hj => ?_, fun h1 h2 => ?_, fun hj => ?_⟩
  · obtain ⟨a, b, d⟩ := try_stop e (onlyFails j) l hl ⟨d0, fun _ => none, l⟩ 0 j (fun _ _ => rfl) hj (fun i hi => hmem _ (by omega)) (by rw [Nat.zero_add]; exact hno)
    have htry : initTry e (onlyFails j) w (InitState.start d0 l (some m)) 0 =
        (false, { InitState.start d0 l (some m) with sig := (installTry e (onlyFails j) l ⟨d0, fun _ => none, l⟩ 0).2.1 }, j + 1) := by
      unfold initTry
      dsimp only
      rw [hinst, a, b, Nat.zero_add]
      rfl
    have hthrow : AllThrow e (onlyFails j) w d0 l (some m) 1 := by unfold AllThrow; rw [hcall, htry]
    have hafter : afterCalls e (onlyFails j) w d0 l (some m) 1 = { InitState.start d0 l (some m) with sig := (installTry e (onlyFails j) l ⟨d0, fun _ => none, l⟩ 0).2.1 } := by
      unfold afterCalls; rw [hcall, htry]
    have hret := C105_memory_back e (onlyFails j) w d0 l hl (some m) 1 hthrow (by rw [hcall, htry]; exact fun i hi => hmem i (by have : j + 1 ≤ i := hi; omega))
    refine ⟨hret, fun x => ?_, ?_⟩
    · constructor
      · rintro ⟨i, hi, h1, h2⟩
        rcases Nat.eq_zero_or_pos i with rfl | hp
        · exact absurd h2 (hd x)
        · have : i = 1 := by omega
          subst this
          rw [hafter] at h2
          change (installTry e (onlyFails j) l ⟨d0, fun _ => none, l⟩ 0).2.1.disp x = _ at h2
          rw [d x] at h2
          by_contra hx
          rw [if_neg hx] at h2
          exact hd x h2
      · intro hx
        refine ⟨1, Nat.le_refl 1, by rw [hafter]; rfl, ?_⟩
        rw [hafter]
        change (installTry e (onlyFails j) l ⟨d0, fun _ => none, l⟩ 0).2.1.disp x = _
        rw [d x, if_pos hx]
    · rw [(C105_retry e (onlyFails j) w d0 hd l hl (some m) 1 hret).2.2.2.1, hafter]; rfl
  · obtain ⟨a, b⟩ := try_fresh e (onlyFails j) l hl ⟨d0, fun _ => none, l⟩ 0 (fun _ _ => rfl) (fun i hi => hmem _ (by omega))
    have hf : ∃ s k, initTry e (onlyFails j) w (InitState.start d0 l (some m)) 0 = (false, s, k) ∧ s.installed = true ∧ j < k := by
      unfold initTry
      dsimp only
      rw [hinst, a, b, Nat.zero_add]
      rw [if_pos rfl]
      unfold initFirst
      by_cases hjl : j = l.length
      · subst hjl
        simp only [InitState.start, Bool.false_eq_true, if_false, hno]
        exact ⟨_, _, rfl, rfl, by omega⟩
      · have hj1 : j = l.length + 1 := by omega
        have hok : onlyFails j l.length = true := hmem _ (by omega)
        have hok2 : onlyFails j (l.length + 1) = false := by rw [← hj1]; exact hno
        simp only [InitState.start, Bool.false_eq_true, if_false, hok, hok2, if_true]
        exact ⟨_, _, rfl, rfl, by omega⟩
    obtain ⟨s, k, hs, hi, hk⟩ := hf
    have hthrow : AllThrow e (onlyFails j) w d0 l (some m) 1 := by unfold AllThrow; rw [hcall, hs]
    have hafter : afterCalls e (onlyFails j) w d0 l (some m) 1 = s := by unfold afterCalls; rw [hcall, hs]
    have hret := C105_memory_back e (onlyFails j) w d0 l hl (some m) 1 hthrow (by rw [hcall, hs]; exact fun i hi => hmem i (by have : k ≤ i := hi; omega))
    refine ⟨hret, ?_, ?_⟩
    · rintro x ⟨i, hi1, h3, h4⟩
      rcases Nat.eq_zero_or_pos i with rfl | hp
      · exact hd x h4
      · have : i = 1 := by omega
        subst this
        rw [hafter, hi] at h3; cases h3
    · rw [(C105_retry e (onlyFails j) w d0 hd l hl (some m) 1 hret).2.2.2.1, hafter, hi]; rfl
  · obtain ⟨a, b⟩ := try_fresh e (onlyFails j) l hl ⟨d0, fun _ => none, l⟩ 0 (fun _ _ => rfl) (fun i hi => hmem _ (by omega))
    have hs : (initTry e (onlyFails j) w (InitState.start d0 l (some m)) 0).1 = true := by
      unfold initTry
      dsimp only
      rw [hinst, a, b, Nat.zero_add]
      rw [if_pos rfl]
      have hok : onlyFails j l.length = true := hmem _ (by omega)
      have hok2 : onlyFails j (l.length + 1) = true := hmem _ (by omega)
      unfold initFirst
      simp only [InitState.start, Bool.false_eq_true, if_false, hok, hok2, if_true]
    have hret : ReturnsAt e (onlyFails j) w d0 l (some m) 0 := ⟨rfl, by rw [Nat.zero_add, hcall]; exact hs⟩
    exact ⟨hret, (C105_exact e (onlyFails j) w d0 hd l hl m 0 hret).mpr ⟨hzero _, rfl⟩⟩

/-- C105: how much memory an installation asks for: once for each signal that the kernel refuses, and once for each other signal of which no former disposition is recorded yet. -/
theorem C105_requests (e : SigEnv) (ok : Nat → Bool) (l : List Int) (hl : l.Nodup) (s : SigState) (k : Nat) (h : (installTry e ok l s k).1 = true) :
    (installTry e ok l s k).2.2 = k + (l.filter fun x => !e.accepts x || (s.saved x).isNone).length := by
  induction l generalizing s k with
  | nil => rfl
  | cons n r ih =>
    obtain ⟨hn1, hn2⟩ := List.nodup_cons.mp hl
    have hfil : ∀ d : Option Disp, (r.filter fun x => !e.accepts x || (setAt s.saved n d x).isNone) = r.filter fun x => !e.accepts x || (s.saved x).isNone := by
      intro d
      refine List.filter_congr fun x hx => ?_
      rw [setAt_other _ _ (show x ≠ n from fun he => hn1 (he ▸ hx))]
    unfold installTry at h ⊢
    by_cases ha : e.accepts n = true
    · simp only [ha, if_true] at h ⊢
      cases hs : s.saved n with
      | some d =>
        simp only [hs] at h ⊢
        rw [ih hn2 _ _ h, hfil, List.filter_cons_of_neg (by simp [ha, hs])]
      | none =>
        simp only [hs] at h ⊢
        by_cases hk : ok k = true
        · simp only [hk, if_true] at h ⊢
          rw [ih hn2 _ _ h, hfil, List.filter_cons_of_pos (by simp [hs]), List.length_cons]; omega
        · simp only [hk, Bool.false_eq_true, if_false] at h
    · simp only [ha, Bool.false_eq_true, if_false] at h ⊢
      by_cases hk : ok k = true
      · simp only [hk, if_true] at h ⊢
        rw [ih hn2 _ _ h, List.filter_cons_of_pos (by simp [ha]), List.length_cons]; omega
      · simp only [hk, Bool.false_eq_true, if_false] at h

/-- C105: after a call that has returned a later one, for the next worker, needs no memory and changes nothing but the worker in use. -/
theorem C105_again (e : SigEnv) (ok : Nat → Bool) (w : Nat) (d0 : Int → Disp) (l : List Int) (hl : l.Nodup) (m : Option Str) (c : Nat)
    (h : ReturnsAt e ok w d0 l m c) (w' k : Nat) :
    initTry e ok w' (afterCalls e ok w d0 l m (c + 1)) k = (true, { afterCalls e ok w d0 l m (c + 1) with inst := some w' }, k) := by
  have inv := retry_inv e ok w d0 l hl m c h.1
  have h1 := h.1
  have h2 := h.2
  unfold AllThrow at h1
  have h3 : initCalls e ok w (c + 1) (InitState.start d0 l m) 0 =
      initTry e ok w (afterCalls e ok w d0 l m c) (initCalls e ok w c (InitState.start d0 l m) 0).2.2 := by
    rw [calls_succ, h1]; rfl
  rw [h3] at h2
  have h4 : afterCalls e ok w d0 l m (c + 1) = (initTry e ok w (afterCalls e ok w d0 l m c) (initCalls e ok w c (InitState.start d0 l m) 0).2.2).2.1 := by
    rw [← h3]; rfl
  have h5 : (afterCalls e ok w d0 l m (c + 1)).installed = true ∧ (afterCalls e ok w d0 l m (c + 1)).firstDone = true := by
    rcases try_cases e ok w (afterCalls e ok w d0 l m c) (initCalls e ok w c (InitState.start d0 l m) 0).2.2 inv.done with ⟨ht, _⟩ | ⟨ht, _⟩ | ⟨_, hs⟩
    · rw [ht] at h2; cases h2
    · rw [ht] at h2; cases h2
    · rw [h4, hs]; exact ⟨rfl, rfl⟩
  generalize afterCalls e ok w d0 l m (c + 1) = s at h5 ⊢
  unfold initTry initInstall initFirst
  simp [h5.1, h5.2]

/-- Not vacuous: the five signals of g3log. -/
example : kSignals.Nodup ∧ kSignals.length = 5 := by decide

example : ∃ (e : SigEnv) (d0 : Int → Disp), e.off = false ∧ (∀ x, d0 x ≠ .g3log) ∧ MemFrom (fun _ => true) 0 ∧ ReturnsAt e (onlyFails 2) 7 d0 kSignals (some ['m']) 1 :=
  ⟨⟨false, fun _ => true⟩, fun _ => .dfl, rfl, fun _ => nofun, fun _ _ => rfl,
    ((C105_one_request ⟨false, fun _ => true⟩ rfl 7 (fun _ => .dfl) (fun _ => by decide) kSignals (by decide) ['m'] 2).1 (by decide)).1⟩

/-- C105 fails: one request finds no memory, `initializeLogging` throws and is called again, returns, and from then on an illegal instruction hangs the process instead of ending it. And if the failing request is another one, the message logged
before the initialisation is lost. -/
theorem C105_negation : (∃ (e : SigEnv) (r : RaiseEnv) (d0 : Int → Disp) (j : Nat), (∀ x, d0 x = .dfl) ∧ r.dflEnds SIGILL = true ∧ ReturnsAt e (onlyFails j) 7 d0 kSignals (some ['m']) 1 ∧
      ¬ Ready e 7 d0 kSignals (some ['m']) (afterCalls e (onlyFails j) 7 d0 kSignals (some ['m']) 2) ∧
      (exitWithDefaultSignalHandler e r ⟨(afterCalls e (onlyFails j) 7 d0 kSignals (some ['m']) 2).sig, 1, true⟩ SIGILL).1 = .hang) ∧
    (∃ (e : SigEnv) (d0 : Int → Disp) (j : Nat), (∀ x, d0 x = .dfl) ∧ ReturnsAt e (onlyFails j) 7 d0 kSignals (some ['m']) 1 ∧
      (afterCalls e (onlyFails j) 7 d0 kSignals (some ['m']) 2).handed = [] ∧ (afterCalls e (onlyFails j) 7 d0 kSignals (some ['m']) 2).inst = some 7) := by
  constructor
  · obtain ⟨h1, h2, _⟩ := (C105_one_request ⟨false, fun _ => true⟩ rfl 7 (fun _ => .dfl) (fun _ => by decide) kSignals (by decide) ['m'] 0).1 (by decide)
    have hsp := (h2 SIGILL).mpr ⟨by decide, rfl⟩
    refine ⟨⟨false, fun _ => true⟩, ⟨fun _ => true, fun _ => true⟩, fun _ => .dfl, 0, fun _ => rfl, rfl, h1, ?_, ?_⟩
    · intro hr
      exact ((C105_exact _ _ 7 (fun _ => .dfl) (fun _ => by decide) kSignals (by decide) ['m'] 1 h1).mp hr).1 _ hsp
    · exact ((C105_exit _ _ _ 7 (fun _ => .dfl) (fun _ => by decide) kSignals (by decide) (some ['m']) 1 h1 SIGILL 0).1 hsp).1
  · obtain ⟨h1, _, h3⟩ := (C105_one_request ⟨false, fun _ => true⟩ rfl 7 (fun _ => .dfl) (fun _ => by decide) kSignals (by decide) ['m'] 5).2.1 (by decide) (by decide)
    exact ⟨⟨false, fun _ => true⟩, fun _ => .dfl, 5, fun _ => rfl, h1, h3, (C105_retry _ _ 7 (fun _ => .dfl) (fun _ => by decide) kSignals (by decide) (some ['m']) 1 h1).2.2.2.2⟩

end G3.Props
