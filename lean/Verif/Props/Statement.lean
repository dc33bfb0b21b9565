import Verif.Spec.Statement
import Verif.Props.Levels
/- C86, C87: logging statements whose operands throw or spoil the stream. -/
namespace G3.Props
open G3 G3.Spec

variable {E W : Type}

/-- Whatever the operands do, they are evaluated in one way only. -/
theorem evals_exists (os : List (Operand E W)) (s : MState W) : ∃ ps e s2, Evals os s ps e s2 := by
  induction os generalizing s with
  | nil => exact ⟨_, _, _, .none s⟩
  | cons o os ih =>
    cases h : (o s).1.exc with
    | some x => exact ⟨_, _, _, .throws (p := (o s).1) (s1 := (o s).2) rfl h⟩
    | none =>
      obtain ⟨ps, e, s2, h2⟩ := ih (o s).2
      exact ⟨_, _, _, .next (p := (o s).1) (s1 := (o s).2) rfl h h2⟩

theorem put_failed (c : CStream) (ps : List (Piece E)) (h : c.failed = true) : ps.foldl CStream.put c = c := by
  induction ps with
  | nil => rfl
  | cons p ps ih => rw [List.foldl_cons]; unfold CStream.put; rw [if_pos h]; exact ih

theorem put_seen (t : Str) (ps : List (Piece E)) : (ps.foldl CStream.put ⟨t, false⟩).text = t ++ seen ps := by
  induction ps generalizing t with
  | nil => simp [seen]
  | cons p ps ih =>
    rw [List.foldl_cons]
    have e : CStream.put ⟨t, false⟩ p = ⟨t ++ p.text, p.spoils⟩ := rfl
    rw [e, seen]
    cases h : p.spoils with
    | true => rw [put_failed _ _ rfl]; simp
    | false => rw [ih]; simp

theorem streamAll_spec {os : List (Operand E W)} {s s2 : MState W} {ps : List (Piece E)} {e : Option E} (h : Evals os s ps e s2) (c : CStream) :
    streamAll os c s = (ps.foldl CStream.put c, e, s2) := by
  induction h generalizing c with
  | none s => rfl
  | next h1 h2 h3 ih => rw [streamAll, h1]; simp only [h2]; rw [ih]; rfl
  | throws h1 h2 => rw [streamAll, h1]; simp only [h2]; rfl

/-- The end of a statement. -/
theorem leave_spec (dtor : StmtDtor E W) (l : Level) (x : Str) (c : CStream) (exc : Option E) (s : MState W) :
    (leave dtor l x c exc s).2 = { s with out := s.out ++ [⟨l, x, cstr c.text⟩], world := (dtor ⟨l, x, cstr c.text⟩ s.world).2 } ∧
    ((dtor ⟨l, x, cstr c.text⟩ s.world).1 = .returns → Reaches exc (leave dtor l x c exc s).1) ∧
    ((dtor ⟨l, x, cstr c.text⟩ s.world).1 = .stays → (leave dtor l x c exc s).1 = .stays) ∧
    (∀ y, (dtor ⟨l, x, cstr c.text⟩ s.world).1 = .throws y →
      (exc = none → (leave dtor l x c exc s).1 = .thrown y) ∧ (exc ≠ none → (leave dtor l x c exc s).1 = .terminated)) := by
  unfold leave
  obtain ⟨d, w, hd⟩ : ∃ d w, dtor ⟨l, x, cstr c.text⟩ s.world = (d, w) := ⟨_, _, rfl⟩
  simp only [hd]
  cases d <;> cases exc <;> simp [Reaches]

/-- A level that is off: nothing is evaluated, nothing is logged. -/
theorem C86_off (l : Level) (body : MState W → StmtEnd E × MState W) (s : MState W) (h : ¬ isOn l s) :
    (logStmt l body s).1 = .done ∧ (logStmt l body s).2.out = s.out ∧ (logStmt l body s).2.world = s.world := by
  have ht := testLevel_spec l s
  have hf : (testLevel l s).1 = false := by
    cases hc : (testLevel l s).1
    · rfl
    · exact absurd (ht.1.mp hc) h
  unfold logStmt
  simp [hf, ht.2.1, ht.2.2.1]

theorem logStmt_on (l : Level) (body : MState W → StmtEnd E × MState W) (s : MState W) (h : isOn l s) : logStmt l body s = body s := by
  have ht := testLevel_spec l s
  have hs : (testLevel l s).2 = s := ht.2.2.2 (by rw [isOn] at h; rw [h]; decide)
  unfold logStmt
  simp [ht.1.mpr h, hs]

/-- `LOG(level) << ...` at a level that is on: the operands are evaluated one after the other, each once, up to the first that throws. Then
exactly one entry is logged, with the text that is in the stream at that moment, and the exception reaches the caller, if handing over the
entry returns. If that throws as well, the program is terminated. -/
theorem C86_stream (dtor : StmtDtor E W) (l : Level) (os : List (Operand E W)) (s s2 : MState W) (ps : List (Piece E)) (exc : Option E)
    (hon : isOn l s) (hev : Evals os s ps exc s2) :
    let r := logStmt l (captureStream dtor l [] os) s
    let d := dtor ⟨l, [], cstr (seen ps)⟩ s2.world
    r.2.out = s2.out ++ [⟨l, [], cstr (seen ps)⟩] ∧ r.2.reg = s2.reg ∧ r.2.world = d.2 ∧
    (d.1 = .returns → Reaches exc r.1) ∧ (d.1 = .stays → r.1 = .stays) ∧
    (∀ y, d.1 = .throws y → (exc = none → r.1 = .thrown y) ∧ (exc ≠ none → r.1 = .terminated)) := by
  intro r d
  have hr : r = leave dtor l [] (ps.foldl CStream.put ⟨[], false⟩) exc s2 := by
    show logStmt l _ s = _
    rw [logStmt_on _ _ _ hon, captureStream, streamAll_spec hev]
  have ht := put_seen [] ps
  rw [List.nil_append] at ht
  obtain ⟨h1, h2, h3, h4⟩ := leave_spec dtor l [] (ps.foldl CStream.put ⟨[], false⟩) exc s2
  rw [ht] at h1 h2 h3 h4
  rw [← hr] at h1 h2 h3 h4
  exact ⟨by rw [h1], by rw [h1], by rw [h1], h2, h3, h4⟩

/-- `LOG_IF`: the condition is evaluated once, before there is an entry; if it throws, nothing is logged and the exception reaches the caller. -/
theorem C86_condition (l : Level) (e : Cond E W) (body : MState W → StmtEnd E × MState W) (s : MState W) (hon : isOn l s) :
    (∀ x, (e s).1 = .error x → logIfStmt l e body s = (.thrown x, (e s).2)) ∧
    ((e s).1 = .ok 0 → logIfStmt l e body s = (.done, (e s).2)) ∧
    (∀ v, (e s).1 = .ok v → v ≠ 0 → logIfStmt l e body s = body (e s).2) := by
  have ht := testLevel_spec l s
  have hs : (testLevel l s).2 = s := ht.2.2.2 (by rw [isOn] at hon; rw [hon]; decide)
  unfold logIfStmt
  simp only [ht.1.mpr hon, hs, Bool.not_true, Bool.false_eq_true, if_false]
  refine ⟨fun x hx => by rw [hx], fun hx => by rw [hx]; rfl, fun v hx hv => ?_⟩
  rw [hx]; simp only; rw [if_neg (fun h => hv h.symm)]

/-- `LOG_IF` at a level that is off: not even the condition is evaluated. -/
theorem C86_condition_off (l : Level) (e : Cond E W) (body : MState W → StmtEnd E × MState W) (s : MState W) (h : ¬ isOn l s) :
    (logIfStmt l e body s).1 = .done ∧ (logIfStmt l e body s).2.out = s.out ∧ (logIfStmt l e body s).2.world = s.world := by
  have ht := testLevel_spec l s
  have hf : (testLevel l s).1 = false := by
    cases hc : (testLevel l s).1
    · rfl
    · exact absurd (ht.1.mp hc) h
  unfold logIfStmt
  simp [hf, ht.2.1, ht.2.2.1]

/-- `CHECK`: the condition is evaluated once; if it throws, there is no fatal event and the exception reaches the caller. -/
theorem C86_check (e : Cond E W) (body : MState W → StmtEnd E × MState W) (s : MState W) :
    (∀ x, (e s).1 = .error x → checkStmt e body s = (.thrown x, (e s).2)) ∧
    ((e s).1 = .ok 1 → checkStmt e body s = (.done, (e s).2)) ∧
    (∀ v, (e s).1 = .ok v → v ≠ 1 → checkStmt e body s = body (e s).2) := by
  unfold checkStmt
  simp only
  refine ⟨fun x hx => by rw [hx], fun hx => by rw [hx]; rfl, fun v hx hv => ?_⟩
  rw [hx]; simp only; rw [if_neg (fun h => hv h.symm)]

/-- `CHECK(...) << ...` with a broken contract: as `LOG`, with the text of the condition. -/
theorem C86_contract (dtor : StmtDtor E W) (l : Level) (x : Str) (os : List (Operand E W)) (s s2 : MState W) (ps : List (Piece E))
    (exc : Option E) (hev : Evals os s ps exc s2) :
    let r := captureStream dtor l x os s
    let d := dtor ⟨l, x, cstr (seen ps)⟩ s2.world
    r.2.out = s2.out ++ [⟨l, x, cstr (seen ps)⟩] ∧ r.2.world = d.2 ∧ (d.1 = .returns → Reaches exc r.1) ∧ (d.1 = .stays → r.1 = .stays) := by
  intro r d
  have hr : r = leave dtor l x (ps.foldl CStream.put ⟨[], false⟩) exc s2 := by
    show captureStream dtor l x os s = _
    rw [captureStream, streamAll_spec hev]
  have ht := put_seen [] ps
  rw [List.nil_append] at ht
  obtain ⟨h1, h2, h3, -⟩ := leave_spec dtor l x (ps.foldl CStream.put ⟨[], false⟩) exc s2
  rw [ht] at h1 h2 h3
  rw [← hr] at h1 h2 h3
  exact ⟨by rw [h1], by rw [h1], h2, h3⟩

/-- `LOGF(level, ...)`: if an argument throws, an entry with empty text is logged and the exception reaches the caller; if the message size is
negative, the same with the exception of the vector; with a positive size one entry with
the text of `capturef`; size zero is undefined behaviour if the format is good. -/
theorem C86_printf (dtor : StmtDtor E W) (size : Int) (le : E) (l : Level) (args : FArgs E W) (s : MState W) (hon : isOn l s)
    (hret : ∀ c w, (dtor c w).1 = .returns) :
    let r := logStmt l (captureF dtor size le l [] args) s
    (∀ x, (args s).1 = .error x → r.1 = .thrown x ∧ r.2.out = (args s).2.out ++ [⟨l, [], []⟩]) ∧
    (∀ f v, (args s).1 = .ok (f, v) → size < 0 → r.1 = .thrown le ∧ r.2.out = (args s).2.out ++ [⟨l, [], []⟩]) ∧
    (∀ f v, (args s).1 = .ok (f, v) → 0 < size →
      ∃ t, capturef size f v = .ok t ∧ r.1 = .done ∧ r.2.out = (args s).2.out ++ [⟨l, [], cstr t⟩]) ∧
    (∀ f t, (args s).1 = .ok (f, some t) → size = 0 → r.1 = .undefined) := by
  intro r
  have hr : r = captureF dtor size le l [] args s := logStmt_on _ _ _ hon
  have key : ∀ (c : CStream) (exc : Option E) (s : MState W),
      Reaches exc (leave dtor l [] c exc s).1 ∧ (leave dtor l [] c exc s).2.out = s.out ++ [⟨l, [], cstr c.text⟩] := by
    intro c exc s
    obtain ⟨h1, h2, -, -⟩ := leave_spec dtor l [] c exc s
    exact ⟨h2 (hret _ _), by rw [h1]⟩
  refine ⟨fun x hx => ?_, fun f v hx hz => ?_, fun f v hx hz => ?_, fun f t hx hz => ?_⟩
  · rw [hr, captureF, hx]; exact key _ (some x) _
  · rw [hr, captureF, hx]
    have : capturef size f v = .error .lengthError := by unfold capturef; rw [if_pos hz]
    simp only [this]; exact key _ (some le) _
  · obtain ⟨t, ht⟩ : ∃ t, capturef size f v = .ok t := by
      unfold capturef
      rw [if_neg (by omega)]
      cases v with
      | none => exact ⟨_, rfl⟩
      | some t => simp only; rw [if_neg (by omega)]; split <;> exact ⟨_, rfl⟩
    refine ⟨t, ht, ?_⟩
    rw [hr, captureF, hx]
    simp only [ht]; exact key _ none _
  · subst hz; rw [hr, captureF, hx]; rfl

/-- The real destructor at a level that is not fatal: it returns, whatever state the front end is in. -/
theorem frontDtor_returns (Ev : Env) (src : Src) (depth : Nat) (full : Bool) (site : Site) (x : E) (cap : Capture) (w : Front × List Eff)
    (h : wasFatal cap.level = false) : (frontDtor Ev src depth full site x cap w).1 = .returns := by
  have hp : ∀ f m, (pushMessageToLogger f m).2.2 = .ok := by
    intro f m
    unfold pushMessageToLogger
    cases f.inst with
    | none => simp only; split <;> rfl
    | some k => rfl
  unfold frontDtor saveMessage
  simp only [h, Bool.false_eq_true, if_false, fStep, hp]

/-- With the library's destructor, at a level that is not fatal: the exception of an operand always reaches the caller, and an initialised
logger gets one message with the text streamed so far. (The full statement speaks of all levels.) -/
theorem C86_caller_partial (Ev : Env) (src : Src) (depth : Nat) (full : Bool) (site : Site) (x : E) (l : Level)
    (os : List (Operand E (Front × List Eff))) (s s2 : MState (Front × List Eff)) (ps : List (Piece E)) (exc : Option E)
    (hon : isOn l s) (hnf : wasFatal l = false) (hev : Evals os s ps exc s2) :
    let r := logStmt l (captureStream (frontDtor Ev src depth full site x) l [] os) s
    Reaches exc r.1 ∧
    ∀ k, s2.world.1.inst = some k → ∃ m, r.2.world = (s2.world.1, s2.world.2 ++ [.save k m]) ∧ m.message = cstr (seen ps) ∧
      m.level = ⟨l.value, cstr l.text⟩ ∧ m.filePath = site.file ∧ m.line = site.line ∧ m.function = site.function ∧
      m.timestamp = site.now ∧ m.threadId = site.tid ∧ m.expression = [] := by
  intro r
  obtain ⟨-, -, h2, h3, -, -⟩ := C86_stream (frontDtor Ev src depth full site x) l os s s2 ps exc hon hev
  refine ⟨h3 (frontDtor_returns Ev src depth full site x _ _ hnf), fun k hk => ?_⟩
  refine ⟨{ LogMessage.new full site.now site.tid site.file site.line site.function l.copy with message := cstr (seen ps), expression := [] },
    ?_, rfl, by simp [LogMessage.new, Level.copy, cstr_idem], rfl, rfl, rfl, rfl, rfl, rfl⟩
  show r.2.world = _
  rw [h2]
  unfold frontDtor saveMessage
  simp only [hnf, Bool.false_eq_true, if_false, fStep, pushMessageToLogger, hk]
  rfl

/-- The full statement fails: LOG(FATAL) with an operand that throws, and an exit handler that throws, as programs install it to survive
fatal events in their tests: instead of an exception for the caller, std::terminate. -/
theorem C86_negation (Ev : Env) (src : Src) : ∃ (s : MState (Front × List Eff)) (o : Operand Nat (Front × List Eff)) (site : Site),
    isOn FATAL s ∧ (o s).1.exc = some 7 ∧
    (logStmt FATAL (captureStream (frontDtor Ev src 1 false site 8) FATAL [] [o]) s).1 = .terminated := by
  let f : Front := { Front.start with inst := some 0, hook := some nothingHook, handler := .custom false }
  refine ⟨⟨defaultLevels, [], (f, [])⟩, fun s => (⟨[], false, some 7⟩, s), ⟨[], 0, [], 6, [], 0, 0⟩, by unfold isOn; decide, rfl, ?_⟩
  rfl

/-- LOG(FATAL) with the default exit handler and no hook: also when an operand throws, the statement does not return and the logger gets the
fatal message, whose text begins with the text streamed so far. -/
theorem C86_fatal (Ev : Env) (src : Src) (depth : Nat) (full : Bool) (site : Site) (x : E) (l : Level)
    (os : List (Operand E (Front × List Eff))) (s s2 : MState (Front × List Eff)) (ps : List (Piece E)) (exc : Option E)
    (hon : isOn l s) (hf : wasFatal l = true) (hev : Evals os s ps exc s2) (k : Nat) (hk : s2.world.1.inst = some k)
    (hh : s2.world.1.handler = .default) (hook : s2.world.1.hook = some nothingHook) :
    let r := logStmt l (captureStream (frontDtor Ev src (depth + 1) full site x) l [] os) s
    r.1 = .stays ∧ ∃ m more, r.2.world.2 = s2.world.2 ++ [.hook 0, .fatal k m] ∧ m.signal = site.signal ∧
      m.base.message = cstr (seen ps) ++ more := by
  intro r
  obtain ⟨-, -, h2, -, h3, -⟩ := C86_stream (frontDtor Ev src (depth + 1) full site x) l os s s2 ps exc hon hev
  have hs : ∀ (f : Front) (m : LogMessage) (t : Str) (n : Int), f.inst = some k → f.handler = .default → f.hook = some nothingHook →
      ∃ fm more, (saveFatalMessage Ev (depth + 1) f m t n).2.1 = [.hook 0, .fatal k fm] ∧
        (saveFatalMessage Ev (depth + 1) f m t n).2.2 = .blocked ∧ fm.signal = n ∧ fm.base.message = m.message ++ more := by
    intro f m t n h1 h2 h3
    unfold saveFatalMessage
    simp only [h3, nothingHook, runActs, if_true, setFatalPreLoggingHook, fatalCall, h2, pushFatalMessageToLogger, h1]
    by_cases hc : f.counter + 1 > 1
    · simp only [if_pos hc]
      exact ⟨_, _, rfl, trivial, rfl, by simp only [FatalMessage.new, LogMessage.copy, List.append_assoc]; rfl⟩
    · simp only [if_neg hc]
      exact ⟨_, _, rfl, trivial, rfl, by simp only [FatalMessage.new, LogMessage.copy]; rfl⟩

  have hd : ∃ m more, (frontDtor Ev src (depth + 1) full site x ⟨l, [], cstr (seen ps)⟩ s2.world).1 = .stays ∧
      (frontDtor Ev src (depth + 1) full site x ⟨l, [], cstr (seen ps)⟩ s2.world).2.2 = s2.world.2 ++ [.hook 0, .fatal k m] ∧
      m.signal = site.signal ∧ m.base.message = cstr (seen ps) ++ more := by
    unfold frontDtor saveMessage
    simp only [hf, if_true, fStep]
    obtain ⟨fm, more, e1, e2, e3, e4⟩ := hs s2.world.1
      { LogMessage.new full site.now site.tid site.file site.line site.function l.copy with message := cstr (seen ps), expression := [] }
      (cstr (LogCapture.new site.file site.line site.function l [] site.signal site.dump).stackTrace) site.signal hk hh hook
    have e0 : ∀ t : Str, (LogMessage.new full site.now site.tid site.file site.line site.function l.copy).message ++ t = t := fun _ => rfl
    simp only [e0, e1, e2]
    exact ⟨fm, more, trivial, rfl, e3, e4⟩
  obtain ⟨m, more, e1, e2, e3, e4⟩ := hd
  exact ⟨h3 e1, m, more, by show r.2.world.2 = _; rw [h2]; exact e2, e3, e4⟩

/-- The message has exactly the texts up to and including that of the first operand that spoils the stream, if one does. -/
theorem C87_exact (dtor : StmtDtor E W) (l : Level) (os : List (Operand E W)) (s s2 : MState W) (a b : List (Piece E)) (p : Piece E)
    (exc : Option E) (hon : isOn l s) (hev : Evals os s (a ++ p :: b) exc s2) (ha : ∀ q ∈ a, q.spoils = false) (hp : p.spoils = true) :
    (logStmt l (captureStream dtor l [] os) s).2.out = s2.out ++ [⟨l, [], cstr (allText (a ++ [p]))⟩] := by
  rw [(C86_stream dtor l os s s2 _ exc hon hev).1]
  have e : seen (a ++ p :: b) = allText (a ++ [p]) := by
    clear hev
    induction a with
    | nil => simp [seen, allText, hp]
    | cons q a ih =>
      have := ih (fun x hx => ha x (List.mem_cons_of_mem _ hx))
      rw [List.cons_append, seen, ha q List.mem_cons_self, this]
      simp [allText]
  rw [e]

theorem seen_all (ps : List (Piece E)) (h : ∀ q ∈ ps.dropLast, q.spoils = false) : seen ps = allText ps := by
  induction ps with
  | nil => rfl
  | cons p ps ih =>
    cases ps with
    | nil => cases hp : p.spoils <;> simp [seen, allText, hp]
    | cons q qs =>
      rw [seen, h p (by simp), ih (fun x hx => h x (by simp [hx]))]
      simp [allText]

/-- If no operand but possibly the last spoils the stream, the message has the texts of all operands, in order, up to a NUL character. (The full
statement has no such condition.) -/
theorem C87_all_partial (dtor : StmtDtor E W) (l : Level) (os : List (Operand E W)) (s s2 : MState W) (ps : List (Piece E)) (exc : Option E)
    (hon : isOn l s) (hev : Evals os s ps exc s2) (h : ∀ q ∈ ps.dropLast, q.spoils = false) :
    (logStmt l (captureStream dtor l [] os) s).2.out = s2.out ++ [⟨l, [], cstr (allText ps)⟩] := by
  rw [(C86_stream dtor l os s s2 _ exc hon hev).1, seen_all ps h]

/-- An operand that is a plain text. -/
def plain (t : Str) : Operand E W := fun s => (⟨t, false, none⟩, s)

/-- `<< stream.rdbuf()` of an empty stream: inserts nothing and sets failbit. -/
def emptyBuf : Operand E W := fun s => (⟨[], true, none⟩, s)

/-- The full statement fails: `LOG(INFO) << "a=" << empty.rdbuf() << "b"` logs "a=". -/
theorem C87_negation (dtor : StmtDtor E W) (w : W) : ∃ (s s2 : MState W) (os : List (Operand E W)) (ps : List (Piece E)),
    isOn INFO s ∧ Evals os s ps none s2 ∧ '\x00' ∉ allText ps ∧
    (logStmt INFO (captureStream dtor INFO [] os) s).2.out ≠ s2.out ++ [⟨INFO, [], allText ps⟩] := by
  let s : MState W := ⟨defaultLevels, [], w⟩
  have hon : isOn INFO s := by unfold isOn; show getStatus INFO defaultLevels = _; decide
  have hev : Evals (E := E) [plain ['a', '='], emptyBuf, plain ['b']] s
      ([⟨['a', '='], false, none⟩] ++ ⟨[], true, none⟩ :: [⟨['b'], false, none⟩]) none s :=
    .next rfl rfl (.next rfl rfl (.next rfl rfl (.none s)))
  refine ⟨s, s, _, _, hon, hev, by simp [allText], ?_⟩
  rw [C87_exact dtor INFO _ s s _ _ _ none hon hev (by simp) rfl]
  intro h
  have h2 := List.append_cancel_left h
  simp [allText, cstr] at h2

/-- A statement whose second operand throws after inserting part of its text: the third operand is not evaluated. -/
example (dtor : StmtDtor Nat Nat) (h : ∀ c w, (dtor c w).1 = .returns) :
    let s : MState Nat := ⟨defaultLevels, [], 0⟩
    let r := logStmt INFO (captureStream dtor INFO [] [plain ['a'], fun s => (⟨['b'], false, some 5⟩, { s with world := 3 }), plain ['c']]) s
    r.1 = .thrown 5 ∧ r.2.out = [⟨INFO, [], ['a', 'b']⟩] := by
  intro s r
  have hon : isOn INFO s := by unfold isOn; show getStatus INFO defaultLevels = _; decide
  have hev : Evals [plain ['a'], fun s => (⟨['b'], false, some 5⟩, { s with world := 3 }), plain ['c']] s
      [⟨['a'], false, none⟩, ⟨['b'], false, some 5⟩] (some 5) { s with world := 3 } :=
    .next rfl rfl (.throws (x := 5) rfl rfl)
  obtain ⟨h1, -, -, h4, -, -⟩ := C86_stream dtor INFO _ s _ _ _ hon hev
  exact ⟨h4 (h _ _), h1⟩

/-- A level that is off, and a condition that throws at a level that is on. -/
example : ¬ isOn INFO (⟨[], [], 0⟩ : MState Nat) ∧
    logIfStmt INFO (fun s : MState Nat => (.error 4, { s with world := 1 })) (fun s => (.done, s)) ⟨defaultLevels, [], 0⟩ =
      (StmtEnd.thrown 4, ⟨defaultLevels, [], 1⟩) := by
  have hon : isOn INFO (⟨defaultLevels, [], 0⟩ : MState Nat) := by unfold isOn; show getStatus INFO defaultLevels = _; decide
  exact ⟨by unfold isOn; decide, (C86_condition INFO _ _ _ hon).1 4 rfl⟩

/-- `C86_fatal`: an initialised logger, an operand that throws after the text "ab". -/
example (Ev : Env) (src : Src) : let s : MState (Front × List Eff) := ⟨defaultLevels, [], ({ Front.start with inst := some 3, hook := some nothingHook }, [])⟩
    let r := logStmt FATAL (captureStream (frontDtor Ev src 1 false ⟨[], 0, [], 6, [], 0, 0⟩ 8) FATAL [] [plain ['a'], fun s => (⟨['b'], false, some 5⟩, s)]) s
    r.1 = .stays ∧ ∃ m more, r.2.world.2 = [.hook 0, .fatal 3 m] ∧ m.signal = 6 ∧ m.base.message = ['a', 'b'] ++ more := by
  intro s r
  have hev : Evals [plain ['a'], fun s => (⟨['b'], false, some 5⟩, s)] s [⟨['a'], false, none⟩, ⟨['b'], false, some 5⟩] (some 5) s := .next rfl rfl (.throws (x := 5) rfl rfl)
  exact C86_fatal Ev src 0 false ⟨[], 0, [], 6, [], 0, 0⟩ 8 FATAL _ s s _ _ (by unfold isOn; show getStatus FATAL defaultLevels = _; decide) (by decide) hev 3 rfl rfl rfl

end G3.Props
