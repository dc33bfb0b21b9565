import Verif.Props.Globals
/- C90: what the variables of Verif.Model.Globals hold, in terms of what has happened. -/
namespace G3.Spec
open G3

/-- The function that wrote `x` last, among those in `as`. -/
def lastWriter (as : List GApi) (x : GVar) (tr : List GEvent) : Option GApi :=
  (tr.reverse.filterMap fun e => if e.op = .write x then e.api.bind fun a => if a ∈ as then some a else none else none).head?

/-- All functions. -/
def gAll : List GApi :=
  [.log, .logf, .fatal, .fatalWork, .initialize, .shutDown, .destroy, .setHook, .setHandler, .setMax, .overrideSignals, .restoreSignal]

/-- There is a logger if the last function that wrote the pointer is initializeLogging. -/
def HasLogger (tr : List GEvent) : Prop := lastWriter gAll .logger tr = some .initialize

/-- An early message is stored if the last function that wrote it is a LOG call. -/
def HasEarly (tr : List GEvent) : Prop := lastWriter gAll .first tr = some .log ∨ lastWriter gAll .first tr = some .logf

/-- The exit handler is the default one if none has been set. -/
def DefaultHandler (tr : List GEvent) : Prop := lastWriter gAll .handler tr = none

/-- A fatal message waits if the worker has not taken it since. -/
def FatalWaits (tr : List GEvent) : Prop := lastWriter [.fatal, .fatalWork] .queue tr = some .fatal

end G3.Spec

namespace G3.Props
open G3 G3.Spec

/-- The values that the functions write. -/
def gMeans : GApi → GVar → Option Bool
  | .initialize, .logger => some true
  | _, .logger => some false
  | .log, .first => some true
  | .logf, .first => some true
  | _, .first => some false
  | _, .handler => some false
  | .fatal, .queue => some true
  | .fatalWork, .queue => some false
  | _, _ => none

/-- A program of accesses writes these. -/
def meansCode (a : GApi) : GCode → Bool
  | .ret => true
  | .stop => true
  | .lock _ n => meansCode a n
  | .unlock _ n => meansCode a n
  | .once _ b n => meansCode a b && meansCode a n
  | .leave _ n => meansCode a n
  | .read _ n => meansCode a (n true) && meansCode a (n false)
  | .write x v n => decide (v = gMeans a x) && meansCode a n
  | .atomic n => meansCode a n

theorem gCode_means (a : GApi) : meansCode a (gCode a) = true := by cases a <;> decide

/-- The value of a variable after the events. -/
def gFold (tr : List GEvent) (x : GVar) : Bool :=
  tr.foldl (fun v e => if e.op = .write x then ((e.api.bind fun a => gMeans a x).getD v) else v) (x == .handler)

structure GMeanInv (s : GState) : Prop where
  cur : ∀ t a c, s.cur t = some (a, c) → meansCode a c = true
  val : ∀ x, s.val x = gFold s.tr x

theorem gFold_snoc (tr : List GEvent) (e : GEvent) (x : GVar) :
    gFold (tr ++ [e]) x = if e.op = .write x then ((e.api.bind fun a => gMeans a x).getD (gFold tr x)) else gFold tr x := by
  simp [gFold]

theorem gMean_step {s s' : GState} {t : Nat} (h : GMeanInv s) (hs : gStep s t = some s') : GMeanInv s' := by
  have upd : ∀ {a : GApi} {c : GCode}, meansCode a c = true → ∀ t' a' c', gSet s.cur t (some (a, c)) t' = some (a', c') → meansCode a' c' = true := by
    intro a c hc t' a' c' e
    unfold gSet at e
    split at e
    · cases e; exact hc
    · exact h.cur t' a' c' e
  unfold gStep at hs
  split at hs
  · cases hs
  split at hs
  · next a c hcur =>
    have hm := h.cur t a c hcur
    have plain : ∀ {o : GOp} (tr : List GEvent), (∀ x, o ≠ .write x) → tr = s.tr ++ [⟨t, some a, o⟩] → ∀ x, s.val x = gFold tr x := by
      intro o tr ho e x
      rw [e, gFold_snoc, if_neg (ho x)]
      exact h.val x
    unfold gExec at hs
    cases c with
    | ret =>
      cases hs
      refine ⟨?_, h.val⟩
      intro t' a' c' e
      simp only [gSet] at e
      split at e
      · cases e
      · exact h.cur t' a' c' e
    | stop => cases hs
    | lock m c =>
      simp only at hs
      split at hs
      · cases hs; exact ⟨upd (by simpa [meansCode] using hm), plain _ (by simp) rfl⟩
      · cases hs
    | unlock m c =>
      simp only at hs
      split at hs
      · cases hs; exact ⟨upd (by simpa [meansCode] using hm), plain _ (by simp) rfl⟩
      · cases hs
    | once f b c =>
      simp only [meansCode, Bool.and_eq_true] at hm
      simp only at hs
      split at hs
      · cases hs; exact ⟨upd hm.1, plain _ (by simp) rfl⟩
      · cases hs
      · cases hs; exact ⟨upd hm.2, plain _ (by simp) rfl⟩
    | leave f c =>
      simp only at hs
      split at hs
      · cases hs; exact ⟨upd (by simpa [meansCode] using hm), plain _ (by simp) rfl⟩
      · cases hs
    | read x c =>
      simp only [meansCode, Bool.and_eq_true] at hm
      cases hs
      refine ⟨upd ?_, plain _ (by simp) rfl⟩
      cases s.val x
      · exact hm.2
      · exact hm.1
    | write x v c =>
      simp only [meansCode, Bool.and_eq_true, decide_eq_true_eq] at hm
      cases hs
      refine ⟨upd hm.2, ?_⟩
      intro y
      show gSet s.val x (v.getD (s.val x)) y = gFold (s.tr ++ [⟨t, some a, .write x⟩]) y
      rw [gFold_snoc]
      unfold gSet
      by_cases e : y = x
      · subst e
        simp [hm.1, h.val y]
      · rw [if_neg e, if_neg (by simp; exact fun e' => e e'.symm)]
        exact h.val y
    | atomic c => cases hs; exact ⟨upd (by simpa [meansCode] using hm), plain _ (by simp) rfl⟩
  · next hcur =>
    have plain : ∀ {o : GOp} (tr : List GEvent), (∀ x, o ≠ .write x) → tr = s.tr ++ [⟨t, none, o⟩] → ∀ x, s.val x = gFold tr x := by
      intro o tr ho e x
      rw [e, gFold_snoc, if_neg (ho x)]
      exact h.val x
    split at hs
    · cases hs
    · next a r _ => cases hs; exact ⟨upd (gCode_means a), h.val⟩
    · split at hs
      · cases hs
      · cases hs; exact ⟨h.cur, plain _ (by simp) rfl⟩
    · split at hs
      · cases hs; exact ⟨h.cur, plain _ (by simp) rfl⟩
      · cases hs

theorem gMean_run {ls : List Nat} : ∀ {s s' : GState}, GMeanInv s → gRun s ls = some s' → GMeanInv s' := by
  induction ls with
  | nil => intro s s' h hr; cases hr; exact h
  | cons l ls ih =>
    intro s s' h hr
    obtain ⟨u, hu, hr⟩ := Option.bind_eq_some_iff.1 hr
    exact ih (gMean_step h hu) hr

theorem mem_gAll (a : GApi) : a ∈ gAll := by cases a <;> decide

theorem lastWriter_snoc (as : List GApi) (x : GVar) (tr : List GEvent) (e : GEvent) :
    lastWriter as x (tr ++ [e]) = if e.op = .write x then ((e.api.bind fun a => if a ∈ as then some a else none).or (lastWriter as x tr)) else lastWriter as x tr := by
  unfold lastWriter
  rw [List.reverse_append, List.reverse_singleton, List.singleton_append, List.filterMap_cons]
  by_cases h : e.op = .write x
  · simp only [h, if_true]
    cases (e.api.bind fun a => if a ∈ as then some a else none) <;> simp
  · simp [h]

/-- The fold, through the last writer. -/
theorem gFold_last (as : List GApi) (x : GVar) (hx : ∀ a, gMeans a x = none ↔ a ∉ as) (tr : List GEvent) :
    gFold tr x = match lastWriter as x tr with | some a => (gMeans a x).getD false | none => x == .handler := by
  induction tr using List.reverseRecOn with
  | nil => rfl
  | append_singleton tr e ih =>
    rw [gFold_snoc, lastWriter_snoc, ih]
    by_cases h : e.op = .write x
    · rw [if_pos h, if_pos h]
      cases ha : e.api with
      | none => rfl
      | some a =>
        by_cases hm : a ∈ as
        · cases hg : gMeans a x with
          | none => exact absurd hm ((hx a).1 hg)
          | some b => simp [hm, hg]
        · have hg := (hx a).2 hm
          simp only [Option.bind_some, hg, hm, if_false, Option.getD_none, Option.none_or]
    · rw [if_neg h, if_neg h]

/-- C90: what decides which accesses follow is what one expects: there is a logger after initializeLogging until shutDownLogging, the destructor of the worker or a fatal message
takes it away; an early message is stored after a LOG call until initializeLogging takes it; the exit handler is the default one until another one is
set; a fatal message waits for the worker until it takes it. -/
theorem C90_meaning (p : Nat → List GItem) (ls : List Nat) (s : GState) (hr : gRun (gStart p) ls = some s) :
    (s.val .logger = true ↔ HasLogger s.tr) ∧ (s.val .first = true ↔ HasEarly s.tr) ∧ (s.val .handler = true ↔ DefaultHandler s.tr) ∧
    (s.val .queue = true ↔ FatalWaits s.tr) := by
  have h0 : GMeanInv (gStart p) := ⟨(by intro t a c e; cases e), (by intro x; rfl)⟩
  have hi := gMean_run h0 hr
  refine ⟨?_, ?_, ?_, ?_⟩
  · rw [hi.val, gFold_last gAll .logger (by intro a; cases a <;> decide)]
    unfold HasLogger
    cases lastWriter gAll .logger s.tr with
    | none => simp
    | some a => cases a <;> simp [gMeans]
  · rw [hi.val, gFold_last gAll .first (by intro a; cases a <;> decide)]
    unfold HasEarly
    cases lastWriter gAll .first s.tr with
    | none => simp
    | some a => cases a <;> simp [gMeans]
  · rw [hi.val, gFold_last gAll .handler (by intro a; cases a <;> decide)]
    unfold DefaultHandler
    cases lastWriter gAll .handler s.tr with
    | none => simp
    | some a => cases a <;> simp [gMeans]
  · rw [hi.val, gFold_last [.fatal, .fatalWork] .queue (by intro a; cases a <;> decide)]
    unfold FatalWaits
    cases lastWriter [.fatal, .fatalWork] .queue s.tr with
    | none => simp
    | some a => cases a <;> simp [gMeans]

/-- An early message, and then the logger: the message has been handed over. -/
example : ∃ ls s, gRun (gStart fun t => if t = 0 then [.call .log, .call .initialize] else []) ls = some s ∧ HasLogger s.tr ∧ ¬ HasEarly s.tr ∧
    ⟨0, some .initialize, .write .queue⟩ ∈ s.tr ∧ HasEarly (s.tr.take 3) := by
  have h : ∃ s, gRun (gStart fun t => if t = 0 then [.call .log, .call .initialize] else []) (List.replicate 28 0) = some s ∧
      (decide (lastWriter gAll .logger s.tr = some .initialize) && decide (lastWriter gAll .first s.tr = some .initialize) &&
        decide (⟨0, some .initialize, .write .queue⟩ ∈ s.tr) && decide (lastWriter gAll .first (s.tr.take 3) = some .log)) = true := ⟨_, rfl, by decide +kernel⟩
  obtain ⟨s, hs, h⟩ := h
  simp only [Bool.and_eq_true, decide_eq_true_eq] at h
  obtain ⟨⟨⟨h1, h2⟩, h3⟩, h4⟩ := h
  exact ⟨_, s, hs, h1, by unfold HasEarly; rw [h2]; simp, h3, .inl h4⟩

end G3.Props
