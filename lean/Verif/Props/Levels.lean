import Verif.Proofs.Levels
import Verif.Model.Macros
/-
Properties of the level registry and of the LOG/CHECK macros:
C20, C21, C22, C23, C24, C25, C57, C60.
-/
namespace G3.Props
open G3 G3.Spec

/-! ### C20 -/

/-- C20: a level is fatal exactly when its value is at least 1000. -/
theorem C20_fatal_iff (l : Level) : wasFatal l = true ↔ (1000 : Int) ≤ l.value := by
  simp [wasFatal, FATAL]

/-- C20: the predefined levels fall on the documented side, whatever the level's text. -/
theorem C20_predefined : wasFatal DEBUG = false ∧ wasFatal INFO = false ∧ wasFatal WARNING = false ∧
    wasFatal FATAL = true ∧ wasFatal CONTRACT = true ∧ wasFatal FATAL_SIGNAL = true ∧
    wasFatal FATAL_EXCEPTION = true ∧
    [DEBUG, INFO, WARNING, FATAL, CONTRACT, FATAL_SIGNAL, FATAL_EXCEPTION].map Level.value =
      [100, 300, 500, 1000, 2000, 2001, 2002] := by decide

example : wasFatal ⟨1000, []⟩ = true ∧ wasFatal ⟨999, "FATAL".toList⟩ = false := by decide

/-! ### C21 -/

/-- C21: under the documented discipline (LOG only with registered levels) every history of calls
returns what the on/off map returns, and leaves the registry in the corresponding state. -/
theorem C21_registry_refines_map (os : List LevelOp) (hd : Documented sInit os) :
    (levelRun defaultLevels os).1 = (sRun sInit os).1 ∧
    ∀ l, getStatus l (levelRun defaultLevels os).2 = sStatus ((sRun sInit os).2 l.value) ∧
      (logLevel l (levelRun defaultLevels os).2).1 = decide ((sRun sInit os).2 l.value = some true) := by
  have h1 := run_exact os defaultLevels regInv_default
  rw [absE_init] at h1
  have h2 := forget_run os eInit noGhost_init (by rw [forget_init]; exact hd)
  rw [forget_init] at h2
  refine ⟨h1.1.trans h2.1, ?_⟩
  intro l
  have e : forget (absE (levelRun defaultLevels os).2) = (sRun sInit os).2 := by rw [h1.2.1, h2.2.1]
  rw [← e]
  have a := out_step (levelRun defaultLevels os).2 (.getStatus l)
  have b := out_step (levelRun defaultLevels os).2 (.logLevel l)
  rw [forget_out] at a b
  simp only [levelStep, sOut, LevelOut.status.injEq, LevelOut.bool.injEq] at a b
  exact ⟨a, b⟩

/-- C21: a call that names one level never influences another one (any history, documented or not;
`setHighest` and the `All` calls name several). -/
theorem C21_no_interference (os : List LevelOp) (o : LevelOp) (k : Int) (t : Str)
    (h : match o with
      | .add l _ | .add1 l | .set l _ | .disable l | .enable l | .getStatus l | .logLevel l => l.value ≠ k
      | _ => False) :
    let r := (levelRun defaultLevels os).2
    getStatus ⟨k, t⟩ (levelStep r o).2 = getStatus ⟨k, t⟩ r := by
  intro r
  have key : ∀ r' : Registry, r'.find? k = r.find? k → getStatus ⟨k, t⟩ r' = getStatus ⟨k, t⟩ r := by
    intro r' e; unfold getStatus; rw [e]
  apply key
  have hs : ∀ l b, l.value ≠ k → (setLevel l b r).find? k = r.find? k := by
    intro l b hl; rw [find?_set, if_neg (fun e => hl e.symm)]
  cases o with
  | add l b => exact (Registry.find?_insert _ _ _ _).trans (if_neg fun e => h e.symm)
  | add1 l => exact (Registry.find?_insert _ _ _ _).trans (if_neg fun e => h e.symm)
  | set l b => exact hs l b h
  | disable l => exact hs l _ h
  | enable l => exact hs l _ h
  | getStatus l => rfl
  | logLevel l =>
    show (logLevel l r).2.find? k = _
    unfold logLevel
    split
    · rfl
    · exact (Registry.find?_insert _ _ _ _).trans (if_neg fun e => h e.symm)
  | reset => exact h.elim
  | setHighest l => exact h.elim
  | disableAll => exact h.elim
  | enableAll => exact h.elim

example : Documented sInit [.add ⟨501, "MY".toList⟩ false, .logLevel ⟨501, []⟩, .setHighest WARNING,
    .logLevel ⟨501, []⟩, .disable ⟨7, []⟩, .getStatus ⟨7, []⟩] := by
  simp [Documented, sStep, sInit, WARNING]

example : (levelRun defaultLevels [.add ⟨501, "MY".toList⟩ false, .logLevel ⟨501, []⟩, .setHighest WARNING,
    .logLevel ⟨501, []⟩, .disable ⟨7, []⟩, .getStatus ⟨7, []⟩]).1 =
    [.unit, .bool false, .unit, .bool true, .unit, .status .absent] := by decide

/-! ### C22 -/

/-- C22 (partial: histories in which LOG was used with registered levels only): after `setHighest(L)`
with `L` registered, a registered level is enabled iff its value is at least `L`'s; unregistered levels
stay absent; with `L` unregistered nothing changes. -/
theorem C22_setHighest_partial (os : List LevelOp) (hd : Documented sInit os) (L l : Level) :
    let r := (levelRun defaultLevels os).2
    (getStatus L r = .absent → getStatus l (setHighest L r) = getStatus l r) ∧
    (getStatus L r ≠ .absent → getStatus l (setHighest L r) =
      if getStatus l r = .absent then .absent else if L.value ≤ l.value then .enabled else .disabled) := by
  intro r
  have h1 := run_exact os defaultLevels regInv_default
  rw [absE_init] at h1
  have h2 := forget_run os eInit noGhost_init (by rw [forget_init]; exact hd)
  have hr : RegInv r := h1.2.2
  have hng : noGhost (absE r) := by
    have : absE r = _ := h1.2.1
    rw [this]; exact h2.2.2
  have st : ∀ (q : Registry) (x : Level), getStatus x q = sStatus (forget (absE q) x.value) := by
    intro q x
    have a := out_step q (.getStatus x)
    rw [forget_out] at a
    simpa [levelStep, sOut] using a
  have hstep : forget (absE (setHighest L r)) = sStep (forget (absE r)) (.setHighest L) := by
    rw [← forget_step (absE r) hng (.setHighest L) (by simp), ← absE_step r hr]; rfl
  have habs : ∀ o : Option Bool, sStatus o = .absent ↔ o = none := by
    intro o; cases o with
    | none => simp [sStatus]
    | some b => cases b <;> simp [sStatus]
  rw [st r L, st r l, st (setHighest L r) l, hstep]
  rw [Ne, habs]
  simp only [sStep]
  refine ⟨fun h => by simp [h], fun h => ?_⟩
  simp only [h, if_false]
  cases forget (absE r) l.value with
  | none => simp [sStatus]
  | some b =>
    cases b <;> by_cases hle : L.value ≤ l.value <;> simp [sStatus, hle]

/-- C22 does not hold for all histories: one LOG at the unregistered level 600 makes a later
`setHighest(WARNING)` leave INFO (300 < 500) enabled and the level 600 (>= 500) disabled. -/
theorem C22_negation : ∃ (os : List LevelOp) (L lo hi : Level),
    let r := (levelRun defaultLevels os).2
    getStatus L r ≠ .absent ∧
    (lo.value < L.value ∧ getStatus lo (setHighest L r) = .enabled) ∧
    (L.value ≤ hi.value ∧ getStatus hi r ≠ .absent ∧ getStatus hi (setHighest L r) = .disabled) :=
  ⟨[.logLevel ⟨600, "X".toList⟩], WARNING, INFO, ⟨600, "X".toList⟩, by decide⟩

/-! ### C23 -/

/-- C23 (partial: for a level that is registered): asking whether a level is enabled changes nothing,
and answers with the status reported by `getStatus`. -/
theorem C23_query_readonly_partial (l : Level) (r : Registry) (h : getStatus l r ≠ .absent) :
    (logLevel l r).2 = r ∧ ((logLevel l r).1 = true ↔ getStatus l r = .enabled) := by
  unfold logLevel getStatus at *
  cases hf : r.find? l.value with
  | none => simp [hf] at h
  | some v => cases hs : v.status <;> simp [hs]

/-- C23, unregistered levels: the answer is `false`, and every other level's status is unchanged. -/
theorem C23_query_unregistered (l : Level) (r : Registry) (h : getStatus l r = .absent) :
    (logLevel l r).1 = false ∧
    (∀ l', l'.value ≠ l.value → getStatus l' (logLevel l r).2 = getStatus l' r) ∧
    getStatus l (logLevel l r).2 = .disabled := by
  unfold getStatus at h
  cases hf : r.find? l.value with
  | some v => cases hs : v.status <;> simp [hf, hs] at h
  | none =>
    refine ⟨by simp [logLevel, hf, LoggingLevel.default], ?_, ?_⟩
    · intro l' hne
      simp [logLevel, hf, getStatus, Registry.find?_insert, hne]
    · simp [logLevel, hf, getStatus, Registry.find?_insert, LoggingLevel.default]

/-- C23 does not hold in full: a query of an unregistered level changes that level's status from absent
to disabled, and a later `enable` (which the documentation says ignores unknown levels) then works. -/
theorem C23_negation : ∃ l : Level,
    getStatus l defaultLevels = .absent ∧
    getStatus l (logLevel l defaultLevels).2 = .disabled ∧
    getStatus l (enable l defaultLevels) = .absent ∧
    getStatus l (enable l (logLevel l defaultLevels).2) = .enabled :=
  ⟨⟨600, "X".toList⟩, by decide⟩

example : getStatus INFO defaultLevels ≠ .absent := by decide

/-! ### C60 -/

/-- C60: the exact result of every history, LOG at unregistered levels included. -/
theorem C60_exact (os : List LevelOp) :
    (levelRun defaultLevels os).1 = (eRun eInit os).1 ∧
    ∀ k t, getStatus ⟨k, t⟩ (levelRun defaultLevels os).2 =
        sStatus (((eRun eInit os).2 k).map Entry.on) ∧
      ((levelRun defaultLevels os).2.find? k).map (fun v => v.level.text) =
        ((eRun eInit os).2 k).map Entry.name := by
  have h1 := run_exact os defaultLevels regInv_default
  rw [absE_init] at h1
  refine ⟨h1.1, ?_⟩
  intro k t
  have a := out_step (levelRun defaultLevels os).2 (.getStatus ⟨k, t⟩)
  simp only [levelStep, eOut, LevelOut.status.injEq, h1.2.1] at a
  refine ⟨a, ?_⟩
  rw [← h1.2.1]
  unfold absE
  cases (levelRun defaultLevels os).2.find? k <;> rfl

/-! ### C57 -/

/-- One printed line of the registry listing. -/
def listLine (k : Int) (name : Str) (on : Bool) : Str :=
  "name: ".toList ++ name ++ " level: ".toList ++ decInt k ++ " status: ".toList ++
    (if on then "1" else "0").toList ++ ['\n']

/-- C57: after any history the listing is the concatenation of one line per recorded level, in strictly
ascending order of level value, and a level has a line iff it is recorded, with its recorded name and
status. -/
theorem C57_listing (os : List LevelOp) : ∃ rows : List (Int × Entry),
    levelsToString (levelRun defaultLevels os).2 = (rows.map fun p => listLine p.1 p.2.name p.2.on).flatten ∧
    (rows.map Prod.fst).Pairwise (· < ·) ∧
    ∀ k e, (k, e) ∈ rows ↔ (eRun eInit os).2 k = some e := by
  have h1 := run_exact os defaultLevels regInv_default
  rw [absE_init] at h1
  obtain ⟨-, hE, hI⟩ := h1
  rw [← hE]
  generalize (levelRun defaultLevels os).2 = r at hI
  refine ⟨r.map fun p => (p.1, ⟨p.2.status, p.2.level.text, decide (p.2.level.value ≠ p.1)⟩), ?_, ?_, ?_⟩
  · have gen : ∀ (q : Registry) (acc : Str),
        q.foldl (fun acc p => acc ++ ("name: ".toList ++ p.2.level.text ++ " level: ".toList ++ decInt p.1
          ++ " status: ".toList ++ decBool p.2.status ++ "\n".toList)) acc =
        acc ++ (q.map fun p => listLine p.1 p.2.level.text p.2.status).flatten := by
      intro q
      induction q with
      | nil => simp
      | cons p q ih =>
        intro acc
        rw [List.foldl_cons, ih]
        have e : ("name: ".toList ++ p.2.level.text ++ " level: ".toList ++ decInt p.1
          ++ " status: ".toList ++ decBool p.2.status ++ "\n".toList) =
            listLine p.1 p.2.level.text p.2.status := by
          unfold listLine decBool
          cases p.2.status <;> simp
        rw [e]
        simp only [List.map_cons, List.flatten_cons, List.append_assoc]
    unfold levelsToString
    rw [gen]
    simp [List.map_map, Function.comp_def]
  · have := hI.sorted
    unfold Registry.Sorted Registry.keys at this
    simpa [List.map_map, Function.comp_def] using this
  · have hs := hI.sorted
    clear hE hI
    intro k e
    unfold absE
    induction r with
    | nil => simp [Registry.find?]
    | cons p r ih =>
      obtain ⟨k', v⟩ := p
      have hs' : (∀ j ∈ Registry.keys r, k' < j) ∧ Registry.Sorted r := by
        simpa [Registry.Sorted, Registry.keys, List.pairwise_cons] using hs
      have ih := ih hs'.2
      simp only [List.map_cons, List.mem_cons, Registry.find?]
      by_cases hk : k = k'
      · subst hk
        have : Registry.find? k r = none := by
          by_contra hc
          have := hs'.1 k ((Registry.mem_keys r k).mpr hc)
          omega
        rw [this] at ih
        simp only [ih, Option.map_none, if_true, Option.map_some, Option.some.injEq, Prod.mk.injEq, true_and]
        constructor
        · rintro (rfl | h)
          · rfl
          · cases h
        · rintro rfl; exact Or.inl rfl
      · simp only [Prod.mk.injEq, hk, false_and, false_or, if_false]
        exact ih

example : levelsToString (levelRun defaultLevels [.disable INFO]).2 =
    ("name: DEBUG level: 100 status: 1\nname: INFO level: 300 status: 0\n" ++
     "name: WARNING level: 500 status: 1\nname: FATAL level: 1000 status: 1\n").toList := by
  have h1 : decInt 100 = "100".toList := by simp [decInt, decNat, digit]
  have h2 : decInt 300 = "300".toList := by simp [decInt, decNat, digit]
  have h3 : decInt 500 = "500".toList := by simp [decInt, decNat, digit]
  have h4 : decInt 1000 = "1000".toList := by simp [decInt, decNat, digit]
  have e : (levelRun defaultLevels [.disable INFO]).2 =
    [(100, ⟨true, DEBUG⟩), (300, ⟨false, INFO⟩), (500, ⟨true, WARNING⟩), (1000, ⟨true, FATAL⟩)] := by decide
  rw [e]
  simp [levelsToString, h1, h2, h3, h4, decBool, DEBUG, INFO, WARNING, FATAL]

/-! ### C24 -/

variable {W : Type}

/-- Is the level switched on in the given state? -/
def isOn (l : Level) (s : MState W) : Prop := getStatus l s.reg = .enabled

theorem testLevel_spec (l : Level) (s : MState W) :
    ((testLevel l s).1 = true ↔ isOn l s) ∧ (testLevel l s).2.out = s.out ∧ (testLevel l s).2.world = s.world
      ∧ (getStatus l s.reg ≠ .absent → (testLevel l s).2 = s) := by
  refine ⟨?_, rfl, rfl, ?_⟩
  · unfold testLevel isOn
    by_cases h : getStatus l s.reg = .absent
    · rw [h]
      have := (C23_query_unregistered l s.reg h).1
      simp [this]
    · exact (C23_query_readonly_partial l s.reg h).2
  · intro h
    unfold testLevel
    rw [(C23_query_readonly_partial l s.reg h).1]

/-- C24, LOG/LOGF at a level that is not enabled: nothing is emitted and the arguments are not evaluated
(the program's own state is untouched). -/
theorem C24_LOG_off (l : Level) (args : Expr W Str) (s : MState W) (h : ¬ isOn l s) :
    (LOG l args s).out = s.out ∧ (LOG l args s).world = s.world := by
  have ht := testLevel_spec l s
  have : (testLevel l s).1 = false := by
    cases hc : (testLevel l s).1
    · rfl
    · exact absurd (ht.1.mp hc) h
  unfold LOG
  simp [this, ht.2.1, ht.2.2.1]

/-- C24, LOG/LOGF at an enabled level: the arguments are evaluated once, in the state before the macro,
and exactly one message with this level and text is emitted after everything the arguments emitted. -/
theorem C24_LOG_on (l : Level) (args : Expr W Str) (s : MState W) (h : isOn l s) :
    (LOG l args s).out = (args s).2.out ++ [⟨l, [], (args s).1⟩] ∧
    (LOG l args s).world = (args s).2.world ∧ (LOG l args s).reg = (args s).2.reg := by
  have ht := testLevel_spec l s
  have hs : (testLevel l s).2 = s := ht.2.2.2 (by rw [isOn] at h; rw [h]; decide)
  unfold LOG
  simp [ht.1.mpr h, hs, emit]

/-- C24, LOG_IF/LOGF_IF: a disabled level evaluates neither condition nor arguments and emits nothing. -/
theorem C24_LOG_IF_off (l : Level) (e : Expr W Int) (args : Expr W Str) (s : MState W) (h : ¬ isOn l s) :
    (LOG_IF l e args s).out = s.out ∧ (LOG_IF l e args s).world = s.world := by
  have ht := testLevel_spec l s
  have : (testLevel l s).1 = false := by
    cases hc : (testLevel l s).1
    · rfl
    · exact absurd (ht.1.mp hc) h
  unfold LOG_IF
  simp [this, ht.2.1, ht.2.2.1]

/-- C24, LOG_IF/LOGF_IF at an enabled level: the condition is evaluated once; if it is zero nothing else
happens, otherwise the arguments are evaluated once after it and exactly one message is emitted. -/
theorem C24_LOG_IF_on (l : Level) (e : Expr W Int) (args : Expr W Str) (s : MState W) (h : isOn l s) :
    ((e s).1 = 0 → LOG_IF l e args s = (e s).2) ∧
    ((e s).1 ≠ 0 →
      (LOG_IF l e args s).out = (args (e s).2).2.out ++ [⟨l, [], (args (e s).2).1⟩] ∧
      (LOG_IF l e args s).world = (args (e s).2).2.world ∧
      (LOG_IF l e args s).reg = (args (e s).2).2.reg) := by
  have ht := testLevel_spec l s
  have hs : (testLevel l s).2 = s := ht.2.2.2 (by rw [isOn] at h; rw [h]; decide)
  unfold LOG_IF
  simp only [ht.1.mpr h, hs, Bool.not_true, Bool.false_eq_true, if_false]
  refine ⟨fun hc => by simp [hc], fun hc => ?_⟩
  have : ¬ (0 : Int) = (e s).1 := fun x => hc x.symm
  simp [this, emit]

/-- C24, build without dynamic levels: every level is enabled. -/
theorem C24_static_always_on (l : Level) : logLevelStatic l = true := rfl

/-- A world that counts evaluations of the condition and of the arguments. -/
example : let e : Expr (Nat × Nat) Int := fun s => (1, { s with world := (s.world.1 + 1, s.world.2) })
    let a : Expr (Nat × Nat) Str := fun s => (['x'], { s with world := (s.world.1, s.world.2 + 1) })
    let s : MState (Nat × Nat) := ⟨defaultLevels, [], (0, 0)⟩
    isOn INFO s ∧ (LOG_IF INFO e a s).world = (1, 1) ∧
    ¬ isOn INFO { s with reg := disable INFO s.reg } ∧
    (LOG_IF INFO e a { s with reg := disable INFO s.reg }).world = (0, 0) := by
  unfold isOn; decide

/-! ### C25 -/

/-- C25 (partial: conditions of type `bool`, i.e. values 0 and 1): CHECK evaluates its condition exactly
once and emits one CONTRACT message carrying the expression text iff the condition is false, whatever
the registry contains. -/
theorem C25_CHECK_partial (txt : Str) (e : Expr W Int) (args : Expr W Str) (s : MState W)
    (hb : (e s).1 = 0 ∨ (e s).1 = 1) :
    ((e s).1 ≠ 0 → CHECK txt e args s = (e s).2) ∧
    ((e s).1 = 0 →
      (CHECK txt e args s).out = (args (e s).2).2.out ++ [⟨CONTRACT, txt, (args (e s).2).1⟩] ∧
      (CHECK txt e args s).world = (args (e s).2).2.world ∧
      (CHECK txt e args s).reg = (args (e s).2).2.reg) := by
  unfold CHECK
  rcases hb with h | h <;> simp [h, emit]

/-- C25: CHECK never consults the registry: with a condition and arguments that do not depend on the
registry, the messages emitted are the same for every two registries. -/
theorem C25_CHECK_ignores_registry (txt : Str) (v : Int) (t : Str) (r r' : Registry) (o : List Capture) (w : W) :
    (CHECK txt (fun s => (v, s)) (fun s => (t, s)) ⟨r, o, w⟩).out =
      (CHECK txt (fun s => (v, s)) (fun s => (t, s)) ⟨r', o, w⟩).out := by
  unfold CHECK emit
  dsimp only
  split <;> rfl

/-- C25 does not hold for conditions of integer type: `CHECK(2)` emits a fatal message although its
condition is true in the sense of C++ (and `LOG_IF(level, 2)` does log). -/
theorem C25_negation : ∃ v : Int, v ≠ 0 ∧
    (CHECK [] (fun s => (v, s)) (fun s => ([], s)) (⟨defaultLevels, [], ()⟩ : MState Unit)).out =
      [⟨CONTRACT, [], []⟩] ∧ wasFatal CONTRACT = true ∧
    (LOG_IF INFO (fun s => (v, s)) (fun s => ([], s)) (⟨defaultLevels, [], ()⟩ : MState Unit)).out ≠ [] :=
  ⟨2, by decide⟩

/-- C25, exact: CHECK emits iff the promoted condition differs from 1. -/
theorem C25_exact (txt : Str) (e : Expr W Int) (args : Expr W Str) (s : MState W) :
    ((e s).1 = 1 → CHECK txt e args s = (e s).2) ∧
    ((e s).1 ≠ 1 → (CHECK txt e args s).out = (args (e s).2).2.out ++ [⟨CONTRACT, txt, (args (e s).2).1⟩] ∧
      (CHECK txt e args s).world = (args (e s).2).2.world ∧ (CHECK txt e args s).reg = (args (e s).2).2.reg) := by
  unfold CHECK
  refine ⟨fun h => by simp [h], fun h => ?_⟩
  have : ¬ (1 : Int) = (e s).1 := fun x => h x.symm
  simp [this, emit]

example : ∃ s : MState Unit, ((fun s => ((0 : Int), s)) s).1 = 0 ∧ getStatus FATAL s.reg = .disabled ∧
    (CHECK "a<b".toList (fun s => ((0 : Int), s)) (fun s => (['m'], s)) s).out = [⟨CONTRACT, "a<b".toList, ['m']⟩] :=
  ⟨⟨disableAll defaultLevels, [], ()⟩, by decide⟩

end G3.Props
