import Verif.Props.ProgramThreads
import Verif.Props.WorkerLive
import Verif.Spec.ProgramFatal
/- Programs with fatal statements on several threads: the steps, and what holds after them. -/
namespace G3.Props
open G3 G3.Spec

/-- The message of a fatal statement. -/
def fatalMsg (full : Bool) (size : Nat) (st : LogStmt) (note : Str) : FatalMessage :=
  FatalMessage.new { stmtMsg full size st with message := (stmtMsg full size st).message ++ stmtTrace st ++ note } st.signal

/-- The note in it. -/
def noteOf (s : QfState) (st : LogStmt) : Str := if 1 < s.counter then recursionNote (s.first.getD (stmtTrace st)) else []

theorem recursionNote_eq (f : Str) : recursiveText f = recursionNote f := by
  have h : "\n\n\nWARNING\nA recursive crash detected. It is likely the hook set with 'setFatalPreLoggingHook(...)' is responsible\n\n".toList ++
      "---First crash stacktrace: ".toList =
      "\n\n\nWARNING\nA recursive crash detected. It is likely the hook set with 'setFatalPreLoggingHook(...)' is responsible\n\n---First crash stacktrace: ".toList := by
    decide +kernel
  unfold recursiveText recursionNote
  rw [h]

/-- The steps. -/
inductive QTr (full : Bool) (size : Nat) (s : QfState) : QfLabel → QfState → Prop
  | levels (t : Nat) (o : LevelOp) (p : List PStep) : (s.th t).pc = .idle → (s.th t).todo = .levels o :: p →
      QTr full size s (.thread t) { s.setTh t ⟨p, .idle⟩ with reg := (levelStep s.reg o).2, trace := s.trace ++ [(t, .levels o)] }
  | test (t : Nat) (st : LogStmt) (p : List PStep) : (s.th t).pc = .idle → (s.th t).todo = .log st :: p →
      QTr full size s (.thread t) { s.setTh t ⟨p, if (logLevel st.level s.reg).1 then .held st else .idle⟩ with
        reg := (logLevel st.level s.reg).2, trace := s.trace ++ [(t, .log st)] }
  | drop (t : Nat) (st : LogStmt) : (s.th t).pc = .held st → st.level.value < 1000 → loggerSet s.worker = false →
      QTr full size s (.thread t) (s.goTo t .idle)
  | look (t : Nat) (st : LogStmt) : (s.th t).pc = .held st → st.level.value < 1000 → loggerSet s.worker = true →
      QTr full size s (.thread t) (s.goTo t (.checked st))
  | crash (t : Nat) (st : LogStmt) : (s.th t).pc = .held st → 1000 ≤ st.level.value →
      QTr full size s (.thread t) { s.goTo t (.crashing st) with counter := s.counter + 1, first := some (s.first.getD (stmtTrace st)) }
  | save (t : Nat) (st : LogStmt) (w : WState (LogMessage × Int)) : (s.th t).pc = .checked st → st.level.value < 1000 → loggerSet s.worker = true →
      wStep s.worker (.save (stmtMsg full size st, 0)) = some w →
      QTr full size s (.thread t) { s.goTo t .idle with worker := w, acc := s.acc ++ [(t, st)] }
  | null (t : Nat) : holdsLogger (s.th t).pc → loggerSet s.worker = false → QTr full size s (.thread t) { s with ended := some .nullPointer }
  | report (t : Nat) (st : LogStmt) : (s.th t).pc = .crashing st → 1000 ≤ st.level.value → loggerSet s.worker = true →
      QTr full size s (.thread t) (s.goTo t (.crashed st (fatalMsg full size st (noteOf s st))))
  | kill (t : Nat) (st : LogStmt) : (s.th t).pc = .crashing st → loggerSet s.worker = false →
      QTr full size s (.thread t) { s with ended := some (.signal st.signal) }
  | fatal (t : Nat) (st : LogStmt) (m : FatalMessage) (w : WState (LogMessage × Int)) : (s.th t).pc = .crashed st m → loggerSet s.worker = true →
      wStep s.worker (.fatal (m.base, m.signal)) = some w →
      QTr full size s (.thread t) { s.goTo t (.asleep st) with worker := w, fat := s.fat ++ [(t, st)] }
  | work (x : WLabel (LogMessage × Int)) (w : WState (LogMessage × Int)) : wStep s.worker x = some w →
      QTr full size s (.worker x) { s with worker := w }

theorem qtr_of_step {full : Bool} {size : Nat} (hs : 1 ≤ size) {s s' : QfState} {l : QfLabel} (h : qfStep full size s l = some s') :
    s.ended = none ∧ s.worker.wpc ≠ .dead ∧ QTr full size s l s' := by
  unfold qfStep at h
  split at h
  · cases h
  next hg =>
  have h1 : s.ended = none := by
    cases he : s.ended with
    | none => rfl
    | some e => rw [he] at hg; simp at hg
  have h2 : s.worker.wpc ≠ .dead := by
    intro e; rw [e] at hg; simp [WPc.isDead] at hg
  refine ⟨h1, h2, ?_⟩
  clear hg
  cases l with
  | worker x =>
    have : ∀ (o : Option (WState (LogMessage × Int))), (o.map fun w => { s with worker := w }) = some s' → wStep s.worker x = o →
        QTr full size s (.worker x) s' := by
      intro o ho e
      obtain ⟨w, rfl, rfl⟩ := Option.map_eq_some_iff.1 ho
      exact .work x w e
    cases x <;> first | (cases h) | exact this _ h rfl
  | thread t =>
    simp only at h
    cases hp : (s.th t).pc with
    | idle =>
      rw [hp] at h
      simp only [qUse] at h
      cases ht : (s.th t).todo with
      | nil => rw [ht] at h; cases h
      | cons x p =>
        rw [ht] at h
        cases x with
        | levels o => cases h; exact .levels t o p hp ht
        | log st => cases h; exact .test t st p hp ht
    | held st =>
      rw [hp] at h
      simp only [qCapture, stmt_op full size hs st, Option.some.injEq] at h
      by_cases hl : 1000 ≤ st.level.value
      · rw [if_pos hl] at h
        subst h
        exact .crash t st hp hl
      · rw [if_neg hl] at h
        simp only at h
        split at h
        · next hw => subst h; exact .look t st hp (by omega) hw
        · next hw => subst h; exact .drop t st hp (by omega) (by simpa using hw)
    | checked st =>
      rw [hp] at h
      simp only [qSave, stmt_op full size hs st] at h
      by_cases hl : 1000 ≤ st.level.value
      · rw [if_pos hl] at h; cases h
      · rw [if_neg hl] at h
        simp only at h
        split at h
        · next hw =>
          obtain ⟨w, h3, rfl⟩ := Option.map_eq_some_iff.1 h
          exact .save t st w hp (by omega) hw h3
        · next hw => cases h; exact .null t (by rw [hp]; trivial) (by simpa using hw)
    | crashing st =>
      rw [hp] at h
      simp only [qReport, stmt_op full size hs st] at h
      by_cases hl : 1000 ≤ st.level.value
      · rw [if_pos hl] at h
        simp only at h
        split at h
        · next hw =>
          cases h
          have e : FatalMessage.new (if s.counter > 1 then { ({ stmtMsg full size st with message := (stmtMsg full size st).message ++ stmtTrace st } : LogMessage) with
              message := ((stmtMsg full size st).message ++ stmtTrace st) ++ recursiveText (s.first.getD (stmtTrace st)) }
              else { stmtMsg full size st with message := (stmtMsg full size st).message ++ stmtTrace st }) st.signal = fatalMsg full size st (noteOf s st) := by
            unfold fatalMsg noteOf
            by_cases hc : 1 < s.counter
            · rw [if_pos hc, if_pos hc, recursionNote_eq]
            · rw [if_neg hc, if_neg hc, List.append_nil]
          have := QTr.report (full := full) (size := size) (s := s) t st hp hl hw
          rw [← e] at this
          exact this
        · next hw => cases h; exact .kill t st hp (by simpa using hw)
      · rw [if_neg hl] at h; cases h
    | crashed st m =>
      rw [hp] at h
      simp only [qFatal] at h
      split at h
      · next hw =>
        obtain ⟨w, h3, rfl⟩ := Option.map_eq_some_iff.1 h
        exact .fatal t st m w hp hw h3
      · next hw => cases h; exact .null t (by rw [hp]; trivial) (by simpa using hw)
    | asleep st => rw [hp] at h; cases h

/-! ### Invariants -/

theorem goTo_th (s : QfState) (t k : Nat) (p : QfPc) : (s.goTo t p).th k = if k = t then ⟨(s.th t).todo, p⟩ else s.th k := rfl

theorem setTh_th (s : QfState) (t k : Nat) (x : QThread) : (s.setTh t x).th k = if k = t then x else s.th k := rfl

/-- Fatal statements go on. -/
theorem fatal_stays {full : Bool} {size : Nat} {s s' : QfState} {l : QfLabel} (h : QTr full size s l s') {g : Nat} {st : LogStmt}
    (hg : inFatalStmt (s.th g).pc = some st) : inFatalStmt (s'.th g).pc = some st := by
  have move : ∀ (t : Nat) (p : QfPc), (∀ st, inFatalStmt (s.th t).pc = some st → inFatalStmt p = some st) → inFatalStmt ((s.goTo t p).th g).pc = some st := by
    intro t p hp
    rw [goTo_th]
    split
    · next e => subst e; exact hp st hg
    · exact hg
  have set : ∀ (t : Nat) (x : QThread), (s.th t).pc = .idle → inFatalStmt ((s.setTh t x).th g).pc = some st := by
    intro t x hp
    rw [setTh_th]
    split
    · next e => subst e; rw [hp] at hg; cases hg
    · exact hg
  cases h with
  | levels t o p hp ht => exact set t _ hp
  | test t st p hp ht => exact set t _ hp
  | drop t st hp hl hw => exact move t _ (by rw [hp]; intro st h; cases h)
  | look t st hp hl hw => exact move t _ (by rw [hp]; intro st h; cases h)
  | crash t st hp hl => exact move t _ (by rw [hp]; intro st h; cases h)
  | save t st w hp hl hw h => exact move t _ (by rw [hp]; intro st h; cases h)
  | null t hp hw => exact hg
  | report t st hp hl hw => exact move t _ (by rw [hp]; intro st h; exact h)
  | kill t st hp hw => exact hg
  | fatal t st m w hp hw h => exact move t _ (by rw [hp]; intro st h; exact h)
  | work x w h => exact hg

/-- What the notes say. -/
def NoteOk (s : QfState) (f : Nat) (note : Str) : Prop :=
  note = [] ∨ ∃ g h st st', g ≠ f ∧ inFatalStmt (s.th g).pc = some st ∧ inFatalStmt (s.th h).pc = some st' ∧ note = recursionNote (stmtTrace st')

theorem noteOk_stays {full : Bool} {size : Nat} {s s' : QfState} {l : QfLabel} (h : QTr full size s l s') {f : Nat} {note : Str} (hn : NoteOk s f note) :
    NoteOk s' f note := by
  rcases hn with hn | ⟨g, k, st, st', h1, h2, h3, h4⟩
  · exact Or.inl hn
  · exact Or.inr ⟨g, k, st, st', h1, fatal_stays h h2, fatal_stays h h3, h4⟩

/-- The threads. -/
structure QfInv (full : Bool) (size : Nat) (progs : Nat → List PStep) (s : QfState) : Prop where
  trace : ∀ t, ofThread t s.trace ++ (s.th t).todo = progs t
  reg : s.reg = (levelRun defaultLevels (uses s.trace)).2
  stmt : ∀ t st, inStmt (s.th t).pc = some st → .log st ∈ ofThread t s.trace
  low : ∀ t st, (s.th t).pc = .checked st → st.level.value < 1000
  high : ∀ t st, inFatalStmt (s.th t).pc = some st → 1000 ≤ st.level.value
  one : 1 ≤ s.counter → ∃ g st, inFatalStmt (s.th g).pc = some st
  two : 2 ≤ s.counter → ∃ g h st st', g ≠ h ∧ inFatalStmt (s.th g).pc = some st ∧ inFatalStmt (s.th h).pc = some st'
  many : ∀ g h st st', g ≠ h → inFatalStmt (s.th g).pc = some st → inFatalStmt (s.th h).pc = some st' → 2 ≤ s.counter
  counted : ∀ g st, inFatalStmt (s.th g).pc = some st → 1 ≤ s.counter ∧ s.first.isSome = true
  first : ∀ tr, s.first = some tr → ∃ h st', inFatalStmt (s.th h).pc = some st' ∧ tr = stmtTrace st'
  msg : ∀ t st m, (s.th t).pc = .crashed st m → ∃ note, m = fatalMsg full size st note ∧ NoteOk s t note
  slept : ∀ x ∈ s.fat, (s.th x.1).pc = .asleep x.2
  sleeps : ∀ t st, (s.th t).pc = .asleep st → s.fat ≠ []

theorem qInv_start (full : Bool) (size : Nat) (w : WState (LogMessage × Int)) (progs : Nat → List PStep) : QfInv full size progs (QfState.start w progs) := by
  constructor <;> simp [QfState.start, ofThread, uses, levelRun, inStmt, inFatalStmt]

/-- Only the beginning of a fatal statement changes the counter and the threads in fatal statements. -/
theorem counts {full : Bool} {size : Nat} {s s' : QfState} {l : QfLabel} (h : QTr full size s l s') :
    (s'.counter = s.counter ∧ s'.first = s.first ∧ ∀ g, inFatalStmt (s'.th g).pc = inFatalStmt (s.th g).pc) ∨
    ∃ t st, (s.th t).pc = .held st ∧ 1000 ≤ st.level.value ∧
      s' = { s.goTo t (.crashing st) with counter := s.counter + 1, first := some (s.first.getD (stmtTrace st)) } := by
  have move : ∀ (t : Nat) (p : QfPc), inFatalStmt (s.th t).pc = inFatalStmt p → ∀ g, inFatalStmt ((s.goTo t p).th g).pc = inFatalStmt (s.th g).pc := by
    intro t p hp g
    rw [goTo_th]
    split
    · next e => subst e; exact hp.symm
    · rfl
  have set : ∀ (t : Nat) (x : QThread), inFatalStmt (s.th t).pc = inFatalStmt x.pc → ∀ g, inFatalStmt ((s.setTh t x).th g).pc = inFatalStmt (s.th g).pc := by
    intro t x hp g
    rw [setTh_th]
    split
    · next e => subst e; exact hp.symm
    · rfl
  cases h with
  | levels t o p hp ht => exact Or.inl ⟨rfl, rfl, set t _ (by rw [hp])⟩
  | test t st p hp ht => exact Or.inl ⟨rfl, rfl, set t _ (by rw [hp]; show _ = inFatalStmt (if _ then _ else _); split <;> rfl)⟩
  | drop t st hp hl hw => exact Or.inl ⟨rfl, rfl, move t _ (by rw [hp]; rfl)⟩
  | look t st hp hl hw => exact Or.inl ⟨rfl, rfl, move t _ (by rw [hp]; rfl)⟩
  | crash t st hp hl => exact Or.inr ⟨t, st, hp, hl, rfl⟩
  | save t st w hp hl hw h => exact Or.inl ⟨rfl, rfl, move t _ (by rw [hp]; rfl)⟩
  | null t hp hw => exact Or.inl ⟨rfl, rfl, fun _ => rfl⟩
  | report t st hp hl hw => exact Or.inl ⟨rfl, rfl, move t _ (by rw [hp]; rfl)⟩
  | kill t st hp hw => exact Or.inl ⟨rfl, rfl, fun _ => rfl⟩
  | fatal t st m w hp hw h => exact Or.inl ⟨rfl, rfl, move t _ (by rw [hp]; rfl)⟩
  | work x w h => exact Or.inl ⟨rfl, rfl, fun _ => rfl⟩

theorem fatal_of_crash {s : QfState} {t : Nat} {st : LogStmt} (g : Nat) :
    inFatalStmt ((s.goTo t (.crashing st)).th g).pc = if g = t then some st else inFatalStmt (s.th g).pc := by
  rw [goTo_th]
  split <;> rfl

theorem qInv_step {full : Bool} {size : Nat} {progs : Nat → List PStep} {s s' : QfState} {l : QfLabel} (hi : QfInv full size progs s)
    (h : QTr full size s l s') : QfInv full size progs s' := by
  have hst : ∀ {g : Nat} {st : LogStmt}, inFatalStmt (s.th g).pc = some st → inFatalStmt (s'.th g).pc = some st := fatal_stays h
  have hno : ∀ {f : Nat} {note : Str}, NoteOk s f note → NoteOk s' f note := noteOk_stays h
  -- counter, first trace, threads in fatal statements
  have hc : (1 ≤ s'.counter → ∃ g st, inFatalStmt (s'.th g).pc = some st) ∧
      (2 ≤ s'.counter → ∃ g h st st', g ≠ h ∧ inFatalStmt (s'.th g).pc = some st ∧ inFatalStmt (s'.th h).pc = some st') ∧
      (∀ g h st st', g ≠ h → inFatalStmt (s'.th g).pc = some st → inFatalStmt (s'.th h).pc = some st' → 2 ≤ s'.counter) ∧
      (∀ g st, inFatalStmt (s'.th g).pc = some st → 1 ≤ s'.counter ∧ s'.first.isSome = true) ∧
      (∀ tr, s'.first = some tr → ∃ h st', inFatalStmt (s'.th h).pc = some st' ∧ tr = stmtTrace st') ∧
      (∀ t st, inFatalStmt (s'.th t).pc = some st → 1000 ≤ st.level.value) := by
    rcases counts h with ⟨a, b, c⟩ | ⟨t, st, hp, hl, rfl⟩
    · simp only [a, b, c]
      exact ⟨hi.one, hi.two, hi.many, hi.counted, hi.first, hi.high⟩
    · have hnt : ∀ g st', inFatalStmt (s.th g).pc = some st' → g ≠ t := by
        rintro g st' e rfl; rw [hp] at e; cases e
      simp only [fatal_of_crash]
      refine ⟨fun _ => ⟨t, st, by simp⟩, ?_, ?_, ?_, ?_, ?_⟩
      · intro h2
        obtain ⟨g, st', hg⟩ := hi.one (by omega)
        have := hnt g st' hg
        exact ⟨g, t, st', st, this, by simp [this, hg], by simp⟩
      · intro g k st1 st2 hgk h1 h2
        have key : ∀ g st1, g ≠ t → (if g = t then some st else inFatalStmt (s.th g).pc) = some st1 → 1 ≤ s.counter := by
          intro g st1 hg e
          rw [if_neg hg] at e
          exact (hi.counted g st1 e).1
        by_cases hg : g = t
        · have := key k st2 (fun e => hgk (hg.trans e.symm)) h2; omega
        · have := key g st1 hg h1; omega
      · intro g st1 _
        exact ⟨by omega, rfl⟩
      · intro tr htr
        simp only [Option.some.injEq] at htr
        cases hf : s.first with
        | none => exact ⟨t, st, by simp, by rw [← htr, hf]; rfl⟩
        | some x =>
          obtain ⟨k, st', hk, e⟩ := hi.first x hf
          exact ⟨k, st', by simp [hnt k st' hk, hk], by rw [← htr, hf]; exact e⟩
      · intro g st1 hg
        by_cases e : g = t
        · rw [if_pos e] at hg; cases hg; exact hl
        · rw [if_neg e] at hg; exact hi.high g st1 hg
  obtain ⟨c1, c2, c3, c4, c5, c6⟩ := hc
  -- a thread goes on in its statement
  have move : ∀ (t : Nat) (p : QfPc) (s'' : QfState), s''.th = (s.goTo t p).th → s''.trace = s.trace → s''.reg = s.reg → s''.fat = s.fat →
      (∀ st, inStmt p = some st → inStmt (s.th t).pc = some st) → (∀ st, p = .checked st → st.level.value < 1000) →
      (∀ st m, p = .crashed st m → ∃ note, m = fatalMsg full size st note ∧ NoteOk s t note) → (∀ st, p ≠ .asleep st) → (∀ st, (s.th t).pc ≠ .asleep st) →
      (∀ t, ofThread t s''.trace ++ (s''.th t).todo = progs t) ∧ s''.reg = (levelRun defaultLevels (uses s''.trace)).2 ∧
      (∀ t st, inStmt (s''.th t).pc = some st → .log st ∈ ofThread t s''.trace) ∧ (∀ t st, (s''.th t).pc = .checked st → st.level.value < 1000) ∧
      (∀ t st m, (s''.th t).pc = .crashed st m → ∃ note, m = fatalMsg full size st note ∧ NoteOk s t note) ∧
      (∀ x ∈ s''.fat, (s''.th x.1).pc = .asleep x.2) ∧ ∀ t st, (s''.th t).pc = .asleep st → s''.fat ≠ [] := by
    intro t p s'' e1 e2 e3 e4 h1 h2 h3 h4 h5
    rw [e1, e2, e3, e4]
    simp only [goTo_th]
    refine ⟨?_, hi.reg, ?_, ?_, ?_, ?_, ?_⟩
    · intro k
      split
      · next e => subst e; exact hi.trace k
      · exact hi.trace k
    · intro k st
      split
      · next e => subst e; exact fun h => hi.stmt k st (h1 st h)
      · exact hi.stmt k st
    · intro k st
      split
      · exact h2 st
      · exact hi.low k st
    · intro k st m
      split
      · next e => subst e; exact h3 st m
      · exact hi.msg k st m
    · intro x hx
      have := hi.slept x hx
      split
      · next e => rw [e] at this; exact absurd this (h5 _)
      · exact this
    · intro k st
      split
      · exact fun h => absurd h (h4 st)
      · exact hi.sleeps k st
  have fin : ∀ {s'' : QfState}, ((∀ t, ofThread t s''.trace ++ (s''.th t).todo = progs t) ∧ s''.reg = (levelRun defaultLevels (uses s''.trace)).2 ∧
      (∀ t st, inStmt (s''.th t).pc = some st → .log st ∈ ofThread t s''.trace) ∧ (∀ t st, (s''.th t).pc = .checked st → st.level.value < 1000) ∧
      (∀ t st m, (s''.th t).pc = .crashed st m → ∃ note, m = fatalMsg full size st note ∧ NoteOk s t note) ∧
      (∀ x ∈ s''.fat, (s''.th x.1).pc = .asleep x.2) ∧ ∀ t st, (s''.th t).pc = .asleep st → s''.fat ≠ []) → s'' = s' → QfInv full size progs s' := by
    rintro s'' ⟨a, b, c, d, e, f, g⟩ rfl
    exact ⟨a, b, c, d, c6, c1, c2, c3, c4, c5, fun t st m hm => (e t st m hm).imp fun n hn => ⟨hn.1, hno hn.2⟩, f, g⟩
  have use : ∀ (t : Nat) (x : PStep) (p : List PStep) (pc : QfPc) (r : Registry), (s.th t).pc = .idle → (s.th t).todo = x :: p → r = (levelStep s.reg (progLevel x)).2 →
      (∀ st, inStmt pc = some st → x = .log st) → inFatalStmt pc = none → (∀ st, pc ≠ .checked st) →
      s' = { s.setTh t ⟨p, pc⟩ with reg := r, trace := s.trace ++ [(t, x)] } → QfInv full size progs s' := by
    intro t x p pc r hp ht hr hx hf hk e
    refine fin ?_ e.symm
    simp only [setTh_th]
    refine ⟨?_, ?_, ?_, ?_, ?_, ?_, ?_⟩
    · intro k
      rw [ofThread_append, ofThread_one, ← hi.trace k]
      by_cases e : k = t
      · subst e; simp [ht]
      · simp [e, Ne.symm e]
    · rw [uses_snoc, levelRun_snoc, ← hi.reg, hr]
    · intro k st hk
      rw [ofThread_append, ofThread_one]
      by_cases e : k = t
      · rw [if_pos e] at hk
        rw [if_pos e.symm, hx st hk]
        simp
      · rw [if_neg e] at hk
        exact List.mem_append_left _ (hi.stmt k st hk)
    · intro k st
      split
      · exact fun h => absurd h (hk st)
      · exact hi.low k st
    · intro k st m
      split
      · intro h; simp only at h; rw [h] at hf; cases hf
      · exact hi.msg k st m
    · intro y hy
      have := hi.slept y hy
      split
      · next e => rw [e, hp] at this; cases this
      · exact this
    · intro k st
      split
      · intro h; simp only at h; rw [h] at hf; cases hf
      · exact hi.sleeps k st
  cases h with
  | levels t o p hp ht => exact use t (.levels o) p .idle _ hp ht rfl (by intro st h; cases h) rfl (by intro st h; cases h) rfl
  | test t st p hp ht =>
    refine use t (.log st) p (if (logLevel st.level s.reg).1 then .held st else .idle) _ hp ht rfl ?_ ?_ ?_ rfl
    · intro st' h; split at h <;> cases h; rfl
    · split <;> rfl
    · intro st' h; split at h <;> cases h
  | drop t st hp hl hw =>
    refine fin ?_ rfl
    exact (move t .idle _ rfl rfl rfl rfl (by intro st h; cases h) (by intro st h; cases h) (by intro st m h; cases h) (by intro st h; cases h)
      (by rw [hp]; intro st h; cases h))
  | look t st hp hl hw =>
    refine fin ?_ rfl
    exact (move t (.checked st) _ rfl rfl rfl rfl (by intro st' h; rw [hp]; exact h) (by intro st' h; cases h; exact hl) (by intro st m h; cases h) (by intro st h; cases h)
      (by rw [hp]; intro st h; cases h))
  | crash t st hp hl =>
    refine fin ?_ rfl
    exact (move t (.crashing st) _ rfl rfl rfl rfl (by intro st' h; rw [hp]; exact h) (by intro st' h; cases h) (by intro st m h; cases h) (by intro st h; cases h)
      (by rw [hp]; intro st h; cases h))
  | save t st w hp hl hw h =>
    refine fin ?_ rfl
    exact (move t .idle _ rfl rfl rfl rfl (by intro st h; cases h) (by intro st h; cases h) (by intro st m h; cases h) (by intro st h; cases h)
      (by rw [hp]; intro st h; cases h))
  | null t hp hw =>
    refine fin ?_ rfl
    exact ⟨hi.trace, hi.reg, hi.stmt, hi.low, hi.msg, hi.slept, hi.sleeps⟩
  | report t st hp hl hw =>
    refine fin (move t (.crashed st (fatalMsg full size st (noteOf s st))) _ rfl rfl rfl rfl (by intro st' h; rw [hp]; exact h) (by intro st' h; cases h) ?_ (by intro st h; cases h)
      (by rw [hp]; intro st h; cases h)) rfl
    intro st' m h
    cases h
    refine ⟨_, rfl, ?_⟩
    unfold noteOf
    split
    · next hc =>
      right
      have hf : inFatalStmt (s.th t).pc = some st := by rw [hp]; rfl
      obtain ⟨g, k, st1, st2, hgk, h1, h2⟩ := hi.two hc
      obtain ⟨tr, htr⟩ := Option.isSome_iff_exists.1 (hi.counted t st hf).2
      obtain ⟨q, st3, h3, h4⟩ := hi.first tr htr
      by_cases e : g = t
      · exact ⟨k, q, st2, st3, fun e' => hgk (e.trans e'.symm), h2, h3, by rw [htr, ← h4]; rfl⟩
      · exact ⟨g, q, st1, st3, e, h1, h3, by rw [htr, ← h4]; rfl⟩
    · exact Or.inl rfl
  | kill t st hp hw =>
    refine fin ?_ rfl
    exact ⟨hi.trace, hi.reg, hi.stmt, hi.low, hi.msg, hi.slept, hi.sleeps⟩
  | fatal t st m w hp hw h =>
    refine fin ?_ rfl
    refine ⟨?_, hi.reg, ?_, ?_, ?_, ?_, ?_⟩
    · intro k
      simp only [goTo_th]
      split
      · next e => subst e; exact hi.trace k
      · exact hi.trace k
    · intro k st'
      simp only [goTo_th]
      split
      · next e => subst e; exact fun h => hi.stmt k st' (by rw [hp]; exact h)
      · exact hi.stmt k st'
    · intro k st'
      simp only [goTo_th]
      split
      · intro h; cases h
      · exact hi.low k st'
    · intro k st' m'
      simp only [goTo_th]
      split
      · intro h; cases h
      · exact hi.msg k st' m'
    · intro x hx
      simp only [goTo_th]
      rcases List.mem_append.1 hx with hx | hx
      · have := hi.slept x hx
        split
        · next e => rw [e, hp] at this; cases this
        · exact this
      · rw [List.mem_singleton.1 hx, if_pos rfl]
    · intro k st' _
      simp
  | work x w h =>
    refine fin ?_ rfl
    exact ⟨hi.trace, hi.reg, hi.stmt, hi.low, hi.msg, hi.slept, hi.sleeps⟩

theorem qInv_run {full : Bool} {size : Nat} (hs : 1 ≤ size) {progs : Nat → List PStep} {ls : List QfLabel} :
    ∀ {s s' : QfState}, QfInv full size progs s → qfRun full size s ls = some s' → QfInv full size progs s' := by
  induction ls with
  | nil => intro s s' h hr; cases hr; exact h
  | cons l ls ih =>
    intro s s' h hr
    obtain ⟨u, hu, hr⟩ := Option.bind_eq_some_iff.1 hr
    exact ih (qInv_step h (qtr_of_step hs hu).2.2) hr

end G3.Props
