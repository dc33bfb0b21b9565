import Verif.Proofs.LogMessage
/-
Properties of log messages and their formatting: C26, C27, C28, C29, C30.
-/
namespace G3.Props
open G3 G3.Spec

/-! ### C26 -/

/-- The text of a details formatter for a message. -/
def detailsText (E : Env) (m : LogMessage) : DetailsFn → Str
  | .default => E.stamp m.timestamp ++ '\t' :: m.level.text ++ " [".toList ++ m.file ++ "->".toList ++
      m.function ++ ':' :: decInt m.line ++ "]\t".toList
  | .full => E.stamp m.timestamp ++ '\t' :: m.level.text ++ " [".toList ++ E.thread m.threadId ++ ' ' :: m.file ++
      "->".toList ++ m.function ++ ':' :: decInt m.line ++ "]\t".toList
  | .custom i => E.custom i { m with detailsFn := .custom i }

/-- C26: for every message, level and formatter, the formatted entry is exactly the documented text for
the kind of its level. -/
theorem C26_toString (E : Env) (m : LogMessage) (f : DetailsFn) :
    (toString E m f).1 = entryText (kindOf m.level.value) (detailsText E m f) (E.stamp m.timestamp) m.message m.expression := by
  have hd : details E (m.overrideDetails f) = detailsText E m f := by
    cases f <;> simp [details, LogMessage.overrideDetails, detailsText, defaultDetails, fullDetails]
  have hl : (m.overrideDetails f).level = m.level := rfl
  have h1 : (m.overrideDetails f).timestamp = m.timestamp := rfl
  have h2 : (m.overrideDetails f).message = m.message := rfl
  have h3 : (m.overrideDetails f).expression = m.expression := rfl
  unfold toString
  simp only [hl, wasFatal, FATAL, FATAL_SIGNAL, FATAL_EXCEPTION, CONTRACT]
  generalize m.level.value = v
  unfold kindOf
  by_cases a : v < 1000
  · have : ¬ v ≥ 1000 := by omega
    simp [a, this, normalToString, hd, h2, entryText]
  have a' : v ≥ 1000 := by omega
  simp only [a', decide_true, Bool.true_eq_false, if_false, a]
  by_cases b : v = 1000
  · subst b; simp [fatalLogToString, hd, h2, entryText]
  by_cases c : v = 2000
  · subst c; simp [fatalCheckToString, hd, h2, h3, entryText]
  by_cases d : v = 2001
  · subst d; simp [fatalSignalToString, h1, h2, entryText]
  by_cases e : v = 2002
  · subst e; simp [fatalExceptionToString, h1, h2, entryText]
  have b' : ¬ (1000 : Int) = v := fun h => b h.symm
  have c' : ¬ (2000 : Int) = v := fun h => c h.symm
  have d' : ¬ (2001 : Int) = v := fun h => d h.symm
  have e' : ¬ (2002 : Int) = v := fun h => e h.symm
  simp [b, c, d, e, b', c', d', e', hd, h2, entryText]

/-- C26: the message text always appears unmodified in the formatted entry. -/
theorem C26_contains_message (E : Env) (m : LogMessage) (f : DetailsFn) :
    ∃ a b, (toString E m f).1 = a ++ m.message ++ b := by
  rw [C26_toString]
  cases kindOf m.level.value <;> exact ⟨_, _, rfl⟩

/-- C26: a message built for a fatal OS signal has the signal level and carries the crash text. -/
theorem C26_signal_ctor (E : Env) (full : Bool) (now : Int) (tid : Nat) (crash : Str) (f : DetailsFn) :
    (toString E (LogMessage.newFatalSignal full now tid crash) f).1 =
      E.stamp now ++ "\n\n***** FATAL SIGNAL RECEIVED ******* \n".toList ++ crash ++ "\n".toList := by
  rw [C26_toString]
  simp [LogMessage.newFatalSignal, LogMessage.new, FATAL_SIGNAL, Level.copy, kindOf, entryText]

/-- C26: to a sink such a message names no place in the program: no file, no function, line 0. -/
theorem C26_signal_place (full : Bool) (now : Int) (tid : Nat) (crash : Str) :
    let m := LogMessage.newFatalSignal full now tid crash
    m.file = [] ∧ m.filePath = [] ∧ m.function = [] ∧ decInt m.line = "0".toList ∧ m.expression = [] ∧ m.message = crash ∧
      m.timestamp = now ∧ m.threadId = tid ∧ m.level = ⟨2001, "FATAL_SIGNAL".toList⟩ ∧ m.detailsFn = .default := by
  refine ⟨by cases full <;> rfl, rfl, rfl, ?_, rfl, List.nil_append _, rfl, rfl, ?_, rfl⟩
  rotate_left
  · show FATAL_SIGNAL.copy.copy = _
    decide +kernel
  show decInt 0 = _
  simp [decInt, decNat, digit]

example : let E : Env := ⟨fun _ => "T".toList, fun _ => "9".toList, fun _ _ => []⟩
    (toString E { LogMessage.new false 0 1 "/a/b.cpp".toList 7 "f".toList CONTRACT with
      message := "boo".toList, expression := "x>0".toList } .full).1 =
      "T\tCONTRACT [9 b.cpp->f:7]\t\n\t*******\t EXIT trigger caused by broken Contract: CHECK(x>0)\n\t\"boo\"".toList := by
  intro E
  have e : decInt 7 = ['7'] := by simp [decInt, decNat, digit]
  rw [C26_toString]
  simp [LogMessage.new, splitFileName, findLastOf, succNpos, CONTRACT, Level.copy, cstr, kindOf, entryText, detailsText, e, E]

/-! ### C27 -/

/-- C27: for every ordinary message whose time stamp, level text, file and function contain no TAB, whose
level text contains no `[` and whose file name contains no `>`, the reader `parseLine` recovers every
field from the default-formatted entry. The message text and the function name are otherwise
arbitrary (they may contain brackets, colons, arrows; the message may contain tabs and newlines). -/
theorem C27_round_trip (E : Env) (m : LogMessage) (hk : m.level.value < 1000)
    (h1 : '\t' ∉ E.stamp m.timestamp) (h2 : '\t' ∉ m.level.text) (h3 : '[' ∉ m.level.text)
    (h4 : '\t' ∉ m.file) (h5 : '>' ∉ m.file) (h6 : '\t' ∉ m.function) :
    parseLine (toString E m .default).1 =
      { stamp := E.stamp m.timestamp, level := m.level.text, file := m.file, function := m.function,
        line := decInt m.line, message := m.message } := by
  rw [C26_toString]
  have hkind : kindOf m.level.value = .ordinary := by unfold kindOf; rw [if_pos hk]
  rw [hkind]
  have htext : entryText .ordinary (detailsText E m .default) (E.stamp m.timestamp) m.message m.expression =
      E.stamp m.timestamp ++ '\t' :: ((m.level.text ++ [' '] ++ '[' :: (m.file ++ ['-'] ++ '>' ::
        (m.function ++ ':' :: (decInt m.line ++ [']'])))) ++ '\t' :: (m.message ++ ['\n'])) := by
    simp [entryText, detailsText]
  rw [htext]
  unfold parseLine
  rw [cut_append '\t' _ _ h1]
  simp only
  have hT : '\t' ∉ m.level.text ++ [' '] ++ '[' :: (m.file ++ ['-'] ++ '>' ::
        (m.function ++ ':' :: (decInt m.line ++ [']']))) := by
    have := decInt_not_mem m.line '\t' (by decide) (by unfold isDig; decide)
    simp [h2, h4, h6, this]
  rw [cut_append '\t' _ _ hT]
  simp only
  rw [cut_append '[' _ _ (by simp [h3])]
  simp only
  rw [cut_append '>' _ _ (by simp [h5])]
  simp only
  have hC : ':' ∉ decInt m.line ++ [']'] := by
    have := decInt_not_mem m.line ':' (by decide) (by unfold isDig; decide)
    simp [this]
  rw [cutLast_append ':' _ _ hC]
  simp

/-- C27: hence different records (under the same conditions) never print the same line. -/
theorem C27_injective (E : Env) (m m' : LogMessage) (hk : m.level.value < 1000) (hk' : m'.level.value < 1000)
    (h : ∀ x ∈ [m, m'], '\t' ∉ E.stamp x.timestamp ∧ '\t' ∉ x.level.text ∧ '[' ∉ x.level.text ∧ '\t' ∉ x.file ∧
      '>' ∉ x.file ∧ '\t' ∉ x.function)
    (e : (toString E m .default).1 = (toString E m' .default).1) :
    E.stamp m.timestamp = E.stamp m'.timestamp ∧ m.level.text = m'.level.text ∧ m.file = m'.file ∧
    m.function = m'.function ∧ m.line = m'.line ∧ m.message = m'.message := by
  obtain ⟨a1, a2, a3, a4, a5, a6⟩ := h m (by simp)
  obtain ⟨b1, b2, b3, b4, b5, b6⟩ := h m' (by simp)
  have p := C27_round_trip E m hk a1 a2 a3 a4 a5 a6
  have q := C27_round_trip E m' hk' b1 b2 b3 b4 b5 b6
  rw [e, q] at p
  simp only [LineFields.mk.injEq] at p
  exact ⟨p.1.symm, p.2.1.symm, p.2.2.1.symm, p.2.2.2.1.symm, (decInt_inj p.2.2.2.2.1).symm, p.2.2.2.2.2.symm⟩

/-- The condition on the file name is needed: two different records with the same line. -/
theorem C27_condition_needed : ∃ (E : Env) (m m' : LogMessage), m.file ≠ m'.file ∧
    (toString E m .default).1 = (toString E m' .default).1 := by
  refine ⟨⟨fun _ => [], fun _ => [], fun _ _ => []⟩,
    { LogMessage.new true 0 1 "a->b".toList 1 "c".toList INFO with message := [] },
    { LogMessage.new true 0 1 "a".toList 1 "b->c".toList INFO with message := [] }, by decide, ?_⟩
  rw [C26_toString, C26_toString]
  simp [LogMessage.new, entryText, detailsText, kindOf, INFO, Level.copy]

example : let E : Env := ⟨fun _ => "2026/11/16 01:02:03 000001".toList, fun _ => [], fun _ _ => []⟩
    let m := { LogMessage.new false 0 1 "/x/main.cpp".toList (-3) "A::operator[]".toList INFO with message := "a]\tb\n".toList }
    m.level.value < 1000 ∧ '\t' ∉ E.stamp m.timestamp ∧ '\t' ∉ m.level.text ∧ '[' ∉ m.level.text ∧ '\t' ∉ m.file ∧
      '>' ∉ m.file ∧ '\t' ∉ m.function := by decide

/-! ### C28 -/

/-- C28: the short file name is what follows the last `/`, `\` or `(`: the rest of the string is empty or
ends with such a character, and the short name contains none. -/
theorem C28_split (s : Str) : ∃ pre, s = pre ++ splitFileName s ∧
    (pre = [] ∨ ∃ a c, pre = a ++ [c] ∧ isSep c = true) ∧ ∀ x ∈ splitFileName s, isSep x = false := by
  have hmem : ∀ c : Char, c ∈ ['(', '/', '\\'] ↔ isSep c = true := by
    intro c; simp [isSep, or_assoc]
  have hf := findLastOf_spec ['(', '/', '\\'] s
  unfold splitFileName
  cases h : findLastOf ['(', '/', '\\'] s with
  | none =>
    refine ⟨[], by simp [succNpos], Or.inl rfl, ?_⟩
    intro x hx
    simp only [succNpos, List.drop_zero] at hx
    have := hf.2 h x hx
    rw [hmem] at this
    simpa using this
  | some i =>
    obtain ⟨a, c, b, e, hl, hc, hb⟩ := hf.1 i h
    have hd : s.drop (i + 1) = b := by
      rw [e, ← hl]
      simp [List.drop_append]
    simp only [succNpos]
    rw [hd]
    refine ⟨a ++ [c], by rw [e]; simp, Or.inr ⟨a, c, rfl, (hmem c).mp hc⟩, ?_⟩
    intro x hx
    have := hb x hx
    rw [hmem] at this
    simpa using this

/-- C28: these three conditions determine the short name. -/
theorem C28_unique (s pre t : Str) (h1 : s = pre ++ t) (h2 : pre = [] ∨ ∃ a c, pre = a ++ [c] ∧ isSep c = true)
    (h3 : ∀ x ∈ t, isSep x = false) : t = splitFileName s := by
  obtain ⟨pre', e1, e2, e3⟩ := C28_split s
  rw [h1] at e1
  -- the shorter of the two remainders is a suffix of the other
  have key : ∀ (p q t u : Str), p ++ t = q ++ u → (∀ x ∈ t, isSep x = false) →
      (q = [] ∨ ∃ a c, q = a ++ [c] ∧ isSep c = true) → t.length ≤ u.length := by
    intro p q t u e ht hq
    by_contra hlt
    have hlt : u.length < t.length := by omega
    rcases hq with rfl | ⟨a, c, rfl, hc⟩
    · have := congrArg List.length e; simp at this; omega
    · -- c lies inside t
      have hlen := congrArg List.length e
      simp only [List.length_append, List.length_singleton] at hlen
      have hle : p.length ≤ a.length := by omega
      have e' : p ++ t = a ++ (c :: u) := by rw [e]; simp
      have := List.append_eq_append_iff.mp e'
      rcases this with ⟨x, h1, h2⟩ | ⟨x, h1, h2⟩
      · have : c ∈ t := by rw [h2]; simp
        have := ht c this
        rw [hc] at this; cases this
      · have : x = [] := by
          have := congrArg List.length h1
          simp only [List.length_append] at this
          exact List.length_eq_zero_iff.mp (by omega)
        subst this
        simp only [List.nil_append] at h2
        have : c ∈ t := by rw [← h2]; simp
        have := ht c this
        rw [hc] at this; cases this
  rw [← h1] at e1
  have l1 := key pre pre' t (splitFileName s) (by rw [← h1, ← e1]) h3 e2
  have l2 := key pre' pre (splitFileName s) t (by rw [← h1, ← e1]) e3 h2
  have hl : t.length = (splitFileName s).length := by omega
  have : pre ++ t = pre' ++ splitFileName s := by rw [← h1, ← e1]
  exact (List.append_inj' this hl).2

/-- C28: a message keeps the full path unchanged; its short name is the split one, or the full one when
built with G3_LOG_FULL_FILENAME. -/
theorem C28_message (full : Bool) (now : Int) (tid : Nat) (file fn : Str) (line : Int) (l : Level) :
    (LogMessage.new full now tid file line fn l).filePath = file ∧
    (LogMessage.new full now tid file line fn l).file = if full then file else splitFileName file := by
  exact ⟨rfl, rfl⟩

example : splitFileName "/home/x/src/main.cpp".toList = "main.cpp".toList ∧
    splitFileName "C:\\a\\b(1).cpp".toList = "1).cpp".toList ∧ splitFileName "main.cpp".toList = "main.cpp".toList := by
  decide

/-! ### C29 -/

/-- Every message made by the public constructors has a level text free of NUL characters. -/
theorem new_level_clean (full : Bool) (now : Int) (tid : Nat) (file fn : Str) (line : Int) (l : Level) :
    Char.ofNat 0 ∉ (LogMessage.new full now tid file line fn l).level.text := by
  simp only [LogMessage.new, Level.copy]
  exact cstr_nul_free _

theorem level_copy_clean (l : Level) (h : Char.ofNat 0 ∉ l.text) : l.copy = l := by
  unfold Level.copy; rw [cstr_eq_self h]

/-- C29: copy and move construction and the conversion of a fatal message back to a message reproduce
every field (for messages with a NUL-free level text, which all constructors guarantee). -/
theorem C29_copy (m : LogMessage) (h : Char.ofNat 0 ∉ m.level.text) (sig : Int) :
    m.copy = m ∧ m.moved = m ∧ (FatalMessage.new m sig).copyToLogMessage = m ∧ (FatalMessage.new m sig).signal = sig := by
  have e := level_copy_clean m.level h
  have c : m.copy = m := by
    cases m; simp only [LogMessage.copy, LogMessage.mk.injEq, true_and, and_true]; exact e
  have d : m.moved = m := by
    cases m; simp only [LogMessage.moved, LogMessage.mk.injEq, true_and, and_true]; exact e
  exact ⟨c, d, by simp [FatalMessage.new, FatalMessage.copyToLogMessage, c], rfl⟩

/-- C29, what a copy is without any restriction: all fields, the name of the level up to its first NUL. -/
theorem C29_copy_exact (m : LogMessage) (sig : Int) :
    let c : LogMessage := { m with level := ⟨m.level.value, cstr m.level.text⟩ }
    m.copy = c ∧ m.moved = c ∧ FatalMessage.new m sig = ⟨c, sig⟩ ∧ (FatalMessage.mk m sig).copyToLogMessage = c := ⟨rfl, rfl, rfl, rfl⟩

/-- C29: copies format to the same text as the original, with every formatter. -/
theorem C29_copy_toString (E : Env) (m : LogMessage) (h : Char.ofNat 0 ∉ m.level.text) (f : DetailsFn) :
    (toString E m.copy f).1 = (toString E m f).1 := by
  rw [(C29_copy m h 0).1]

/-- C29 (partial): assignment reproduces every field except the full file path and the stored formatter,
which keep their old values. -/
theorem C29_assign_partial (self other : LogMessage) (h : Char.ofNat 0 ∉ other.level.text) :
    self.assign other = { other with filePath := self.filePath, detailsFn := self.detailsFn } := by
  unfold LogMessage.assign LogMessage.swap LogMessage.copy
  simp [level_copy_clean other.level h]

/-- C29 is false for assignment: after `a = b` the full path of `a` is not that of `b`. -/
theorem C29_negation : ∃ a b : LogMessage, Char.ofNat 0 ∉ b.level.text ∧ (a.assign b).filePath ≠ b.filePath ∧
    (a.assign b).file = b.file :=
  ⟨LogMessage.new false 0 1 "/x/a.cpp".toList 1 "f".toList INFO,
   LogMessage.new false 0 1 "/y/b.cpp".toList 1 "f".toList INFO, by decide⟩

/-- C29: swapping twice restores both messages. -/
theorem C29_swap_involutive (a b : LogMessage) :
    LogMessage.swap (LogMessage.swap a b).1 (LogMessage.swap a b).2 = (a, b) := by
  cases a; cases b; rfl

example : Char.ofNat 0 ∉ (LogMessage.new false 0 1 "/x/a.cpp".toList 1 "f".toList WARNING).level.text := by decide

/-! ### C30 -/

/-- C30 (partial: the formatter passed to `toString`): the entry is formatted with the formatter given to
this call, whatever was set or used before; formatting changes nothing else in the message. -/
theorem C30_formatter_partial (E : Env) (m : LogMessage) (f g : DetailsFn) :
    (toString E (m.overrideDetails g) f).1 = (toString E m f).1 ∧
    (toString E (toString E m g).2 f).1 = (toString E m f).1 ∧
    (toString E m f).2 = { m with detailsFn := f } := by
  have h2 : ∀ k, (toString E m k).2 = { m with detailsFn := k } := by
    intro k
    unfold toString
    simp only
    repeat' split
    all_goals rfl
  refine ⟨?_, ?_, h2 f⟩
  · rw [C26_toString, C26_toString]
    congr 1
  · rw [h2, C26_toString, C26_toString]
    congr 1

/-- C30 is false for `overrideLogDetailsFunc` followed by `toString()`: the default argument of
`toString` overrides the formatter just set. -/
theorem C30_negation : ∃ (E : Env) (m : LogMessage),
    (toStringDefault E (m.overrideDetails .full)).1 ≠ (toString E m .full).1 ∧
    ∀ g, (toStringDefault E (m.overrideDetails g)).1 = (toString E m .default).1 := by
  refine ⟨⟨fun _ => [], fun _ => "7".toList, fun _ _ => []⟩, LogMessage.new false 0 1 [] 1 [] INFO, ?_, ?_⟩
  · unfold toStringDefault
    rw [C26_toString, C26_toString]
    have e : decInt 1 = ['1'] := by simp [decInt, decNat, digit]
    simp [LogMessage.new, entryText, detailsText, kindOf, INFO, Level.copy, LogMessage.overrideDetails, e, cstr, splitFileName]
  · intro g
    exact (C30_formatter_partial _ _ .default g).1

end G3.Props
