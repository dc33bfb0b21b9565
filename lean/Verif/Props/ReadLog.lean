import Verif.Spec.ReadLog
import Verif.Props.LogMessage
import Verif.Props.FileSink
/-
C117: reading a log file back.
-/
namespace G3.Props
open G3 G3.Spec

/-! ### Lines -/

theorem textLines_cons (c : Char) (r : Str) : textLines (c :: r) = if c = '\n' then [] :: textLines r
    else match textLines r with
      | [] => []
      | l :: ls => (c :: l) :: ls := rfl

theorem textLines_line {l : Str} (h : '\n' ∉ l) (r : Str) : textLines (l ++ '\n' :: r) = l :: textLines r := by
  induction l with
  | nil => simp [textLines]
  | cons c l ih =>
    rw [List.mem_cons, not_or] at h
    rw [List.cons_append, textLines_cons, if_neg (fun e => h.1 e.symm), ih h.2]

/-- A text has as many lines as ends of lines. -/
theorem textLines_length (a : Str) : (textLines a).length = a.count '\n' := by
  induction a with
  | nil => rfl
  | cons c a ih =>
    unfold textLines
    by_cases h : c = '\n'
    · rw [if_pos h, List.length_cons, ih, h, List.count_cons_self]
    · rw [if_neg h, List.count_cons_of_ne h, ← ih]
      cases textLines a <;> rfl

/-! ### One entry -/

theorem entry_shape (E : Env) (m : LogMessage) (hk : m.level.value < 1000) :
    (toString E m .default).1 = E.stamp m.timestamp ++ "\t".toList ++ m.level.text ++ " [".toList ++ m.file ++ "->".toList ++ m.function ++ ":".toList ++
      decInt m.line ++ "]\t".toList ++ m.message ++ ['\n'] := by
  rw [C26_toString]
  have hkind : kindOf m.level.value = .ordinary := by unfold kindOf; rw [if_pos hk]
  rw [hkind]
  simp [entryText, detailsText]

/-- C117: the lines that an ordinary entry takes: one, and one more for each end of a line in its fields. -/
theorem C117_lines (E : Env) (m : LogMessage) (hk : m.level.value < 1000) :
    (textLines (toString E m .default).1).length = 1 + (E.stamp m.timestamp).count '\n' + m.level.text.count '\n' + m.file.count '\n' +
      m.function.count '\n' + m.message.count '\n' := by
  rw [textLines_length, entry_shape E m hk]
  have hd : (decInt m.line).count '\n' = 0 := List.count_eq_zero.mpr (decInt_not_mem m.line '\n' (by decide) (by unfold isDig; decide))
  simp only [List.count_append, hd]
  have e1 : List.count '\n' "\t".toList = 0 := by decide
  have e2 : List.count '\n' " [".toList = 0 := by decide
  have e3 : List.count '\n' "->".toList = 0 := by decide
  have e4 : List.count '\n' ":".toList = 0 := by decide
  have e5 : List.count '\n' "]\t".toList = 0 := by decide
  have e6 : List.count '\n' ['\n'] = 1 := by decide
  rw [e1, e2, e3, e4, e5, e6]
  omega

theorem entry_line (E : Env) (m : LogMessage) (hk : m.level.value < 1000) (ho : OneLine E m) :
    ∃ l, (toString E m .default).1 = l ++ ['\n'] ∧ '\n' ∉ l := by
  obtain ⟨h1, h2, h3, h4, h5⟩ := ho
  refine ⟨_, entry_shape E m hk, ?_⟩
  have hd := decInt_not_mem m.line '\n' (by decide) (by unfold isDig; decide)
  simp only [List.mem_append, not_or]
  exact ⟨⟨⟨⟨⟨⟨⟨⟨⟨⟨h1, by decide⟩, h2⟩, by decide⟩, h3⟩, by decide⟩, h4⟩, by decide⟩, hd⟩, by decide⟩, h5⟩

/-- Entries of one line each are read back. -/
theorem read_entries (E : Env) (ms : List LogMessage) (h : ∀ m ∈ ms, CleanFields E m ∧ OneLine E m) (r : Str) :
    ∃ ls, textLines ((ms.map fun m => (toString E m .default).1).flatten ++ r) = ls ++ textLines r ∧
      ls.map (fun l => parseLine (l ++ ['\n'])) = ms.map (recordOf E) := by
  induction ms with
  | nil => exact ⟨[], rfl, rfl⟩
  | cons m ms ih =>
    obtain ⟨ls, i1, i2⟩ := ih (fun x hx => h x (List.mem_cons_of_mem _ hx))
    obtain ⟨⟨c0, c1, c2, c3, c4, c5, c6⟩, ho⟩ := h m List.mem_cons_self
    obtain ⟨l, hl, hn⟩ := entry_line E m c0 ho
    refine ⟨l :: ls, ?_, ?_⟩
    · rw [List.map_cons, List.flatten_cons, hl]
      have : l ++ ['\n'] ++ (ms.map fun m => (toString E m .default).1).flatten ++ r =
          l ++ '\n' :: ((ms.map fun m => (toString E m .default).1).flatten ++ r) := by simp
      rw [this, textLines_line hn, i1]
      rfl
    · rw [List.map_cons, List.map_cons, i2, ← hl, C27_round_trip E m c0 c1 c2 c3 c4 c5 c6]
      rfl

/-! ### The file -/

theorem received_plain (E : Env) {ops : List SinkOp} (hp : ∀ op ∈ ops, plainOp op) :
    received E .default ops = (writtenIn ops).map fun m => (toString E m .default).1 := by
  induction ops with
  | nil => rfl
  | cons op ops ih =>
    have i := ih (fun x hx => hp x (List.mem_cons_of_mem _ hx))
    have h0 := hp op List.mem_cons_self
    cases op with
    | write m t => show _ :: received E .default ops = _ :: _; rw [i]
    | fileName => exact i
    | spill n => exact i
    | change => exact h0.elim
    | overrideDetails => exact h0.elim
    | overrideHeader => exact h0.elim

theorem header_plain (h : Str) {ops : List SinkOp} (hp : ∀ op ∈ ops, plainOp op) :
    (writtenIn ops = [] ∧ firstHeader h ops = []) ∨ ∃ t, '\n' ∉ t ∧ firstHeader h ops = hdrText t h := by
  induction ops with
  | nil => exact .inl ⟨rfl, rfl⟩
  | cons op ops ih =>
    have i := ih (fun x hx => hp x (List.mem_cons_of_mem _ hx))
    have h0 := hp op List.mem_cons_self
    cases op with
    | write m t => exact .inr ⟨t, h0, rfl⟩
    | fileName => exact i
    | spill n => exact i
    | change => exact h0.elim
    | overrideDetails => exact h0.elim
    | overrideHeader => exact h0.elim

theorem five_lines {a b c d e : Str} (ha : '\n' ∉ a) (hb : '\n' ∉ b) (hc : '\n' ∉ c) (hd : '\n' ∉ d) (he : '\n' ∉ e) (r : Str) :
    textLines (a ++ '\n' :: (b ++ '\n' :: (c ++ '\n' :: (d ++ '\n' :: (e ++ '\n' :: r))))) = a :: b :: c :: d :: e :: textLines r := by
  rw [textLines_line ha, textLines_line hb, textLines_line hc, textLines_line hd, textLines_line he]

/-- The text of the header has five lines. -/
theorem default_header_text : ∃ b d : Str, '\n' ∉ b ∧ '\n' ∉ d ∧ defaultHeader = b ++ '\n' :: ([] ++ '\n' :: (d ++ '\n' :: ([] ++ '\n' :: []))) :=
  ⟨"\t\tLOG format: [YYYY/MM/DD hh:mm:ss uuu* LEVEL FILE->FUNCTION:LINE] message".toList,
    "\t\t(uuu*: microseconds fractions of the seconds value)".toList, by decide +kernel, by decide +kernel, by decide +kernel⟩

theorem header_lines {t : Str} (ht : '\n' ∉ t) (r : Str) : ∃ a b c d e, textLines (hdrText t defaultHeader ++ r) = a :: b :: c :: d :: e :: textLines r := by
  obtain ⟨b, d, hb, hd, he⟩ := default_header_text
  have h1 : '\n' ∉ "\t\tg3log created log at: ".toList ++ t := by rw [List.mem_append, not_or]; exact ⟨by decide, ht⟩
  refine ⟨"\t\tg3log created log at: ".toList ++ t, b, [], d, [], ?_⟩
  rw [← five_lines h1 hb (c := []) (by simp) hd (e := []) (by simp) r, he]
  unfold hdrText
  generalize "\t\tg3log created log at: ".toList = x
  rw [show "\n".toList = ['\n'] from rfl]
  simp only [List.append_assoc, List.cons_append, List.nil_append]

theorem aInit_hdr (path : Str) : (aInit path).hdr = defaultHeader := by
  unfold aInit
  dsimp only
  decide +kernel

theorem constructed_default_header {s : FileSink} {fs : FS} {p path : Str} {N : Nat} (h : Constructed s fs p path N) : s.header = defaultHeader :=
  (constructed_inv h).hdr.trans (aInit_hdr path)

/-- C117, full statement in view: the reader gets from the file exactly the entries that were written, with all their fields, whatever the messages are.
What is missing (`C117_negation`): messages that contain the end of a line. Proved for every sequence of messages without, every flush interval, whatever
the stream hands over by itself. -/
theorem C117_read_partial (E : Env) {s : FileSink} {fs : FS} {p path : Str} {N : Nat} (hN : 1 ≤ N) (h : Constructed s fs p path N)
    (ops : List SinkOp) (hp : ∀ op ∈ ops, plainOp op) (hm : ∀ m ∈ writtenIn ops, CleanFields E m ∧ OneLine E m) (time : Str) (ht : '\n' ∉ time) :
    ∃ s' fs' outs content, sinkRun E s fs ops = .ok (s', fs', outs) ∧ s'.destroy fs' time path = some content ∧
      readLog content = (writtenIn ops).map (recordOf E) := by
  have hc : NoChange ops := fun d i n nt ht o hx => hp _ hx
  obtain ⟨s', fs', outs, h1, h2, _⟩ := C38_content E hN h ops hc time
  refine ⟨s', fs', outs, _, h1, h2, ?_⟩
  rw [constructed_default_header h]
  have hend : textLines ("g3log g3FileSink shutdown at: ".toList ++ time ++ "\n".toList) = ["g3log g3FileSink shutdown at: ".toList ++ time] := by
    have := textLines_line (l := "g3log g3FileSink shutdown at: ".toList ++ time) (by rw [List.mem_append, not_or]; exact ⟨by decide, ht⟩) []
    exact this
  obtain ⟨ls, r1, r2⟩ := read_entries E (writtenIn ops) hm ("g3log g3FileSink shutdown at: ".toList ++ time ++ "\n".toList)
  rw [hend] at r1
  unfold readLog
  rcases header_plain defaultHeader hp with ⟨w, hh⟩ | ⟨t, t1, hh⟩
  · rw [hh, received_plain E hp, w, List.map_nil, List.flatten_nil, List.nil_append, List.nil_append]
    have := hend
    rw [this]
    rfl
  · rw [hh, received_plain E hp]
    obtain ⟨a, b, c, d, e, hl⟩ := header_lines t1 ((List.map (fun m => (toString E m .default).1) (writtenIn ops)).flatten ++
      ("g3log g3FileSink shutdown at: ".toList ++ time ++ "\n".toList))
    have hassoc : hdrText t defaultHeader ++ (List.map (fun m => (toString E m .default).1) (writtenIn ops)).flatten ++
        "g3log g3FileSink shutdown at: ".toList ++ time ++ "\n".toList =
        hdrText t defaultHeader ++ ((List.map (fun m => (toString E m .default).1) (writtenIn ops)).flatten ++
          ("g3log g3FileSink shutdown at: ".toList ++ time ++ "\n".toList)) := by
      simp only [List.append_assoc]
    rw [hassoc, hl, r1]
    show List.map _ (ls ++ [_]).dropLast = _
    rw [List.dropLast_concat, r2]

/-! ### Forged entries -/

/-- C117 fails: with the end of a line in it a message continues with whatever text it likes. -/
theorem C117_any_text (E : Env) (m : LogMessage) (hk : m.level.value < 1000) (x : Str) :
    (toString E { m with message := m.message ++ '\n' :: x } .default).1 = (toString E m .default).1 ++ x ++ ['\n'] := by
  rw [entry_shape E m hk, entry_shape E { m with message := m.message ++ '\n' :: x } hk]
  simp only [List.append_assoc, List.cons_append, List.nil_append]

/-- C117 fails: for every sequence of entries there is a single message that prints the same text. -/
theorem C117_forge (E : Env) (m : LogMessage) (hk : m.level.value < 1000) (ms : List LogMessage) (hms : ∀ x ∈ ms, x.level.value < 1000) :
    ∃ text, (toString E { m with message := text } .default).1 = (toString E m .default).1 ++ (ms.map fun x => (toString E x .default).1).flatten := by
  induction ms using List.reverseRecOn with
  | nil => exact ⟨m.message, by simp⟩
  | append_singleton ms x ih =>
    obtain ⟨text, ht⟩ := ih (fun y hy => hms y (List.mem_append_left _ hy))
    have hx := entry_shape E x (hms x (by simp))
    refine ⟨text ++ '\n' :: (toString E x .default).1.dropLast, ?_⟩
    have := C117_any_text E { m with message := text } hk (toString E x .default).1.dropLast
    have hd : (toString E x .default).1.dropLast ++ ['\n'] = (toString E x .default).1 := by rw [hx, List.dropLast_concat]
    rw [this, ht, List.append_assoc, hd]
    simp

/-- C117 fails: a program that logs one message can leave the very file that another one leaves which logs any number of them; so nobody can tell
from a file which entries were logged. For every file sink, flush interval and sequence of messages. -/
theorem C117_negation (E : Env) {s : FileSink} {fs : FS} {p path : Str} {N : Nat} (hN : 1 ≤ N) (h : Constructed s fs p path N)
    (m : LogMessage) (hk : m.level.value < 1000) (ms : List LogMessage) (hms : ∀ x ∈ ms, x.level.value < 1000) (t time : Str) :
    ∃ text s1 fs1 o1 s2 fs2 o2, sinkRun E s fs [.write { m with message := text } t] = .ok (s1, fs1, o1) ∧
      sinkRun E s fs (.write m t :: ms.map fun x => .write x t) = .ok (s2, fs2, o2) ∧
      s1.destroy fs1 time path = s2.destroy fs2 time path ∧ s1.destroy fs1 time path ≠ none := by
  obtain ⟨text, hf⟩ := C117_forge E m hk ms hms
  obtain ⟨s1, fs1, o1, a1, a2, _⟩ := C38_content E hN h [.write { m with message := text } t] (by intro d i n nt ht o hx; simp at hx) time
  obtain ⟨s2, fs2, o2, b1, b2, _⟩ := C38_content E hN h (.write m t :: ms.map fun x => .write x t) (by intro d i n nt ht o hx; simp at hx) time
  refine ⟨text, s1, fs1, o1, s2, fs2, o2, a1, b1, ?_, by rw [a2]; simp⟩
  rw [a2, b2]
  have hr : received E .default (.write m t :: ms.map fun x => SinkOp.write x t) =
      (toString E m .default).1 :: ms.map fun x => (toString E x .default).1 := by
    show _ :: received E .default (ms.map fun x => SinkOp.write x t) = _
    congr 1
    clear hf b1 b2 hms
    induction ms with
    | nil => rfl
    | cons x ms ih => show _ :: received E .default (ms.map fun x => SinkOp.write x t) = _; rw [ih]; rfl
  have hr1 : received E .default [.write { m with message := text } t] = [(toString E { m with message := text } .default).1] := rfl
  rw [hr, hr1, List.flatten_cons, List.flatten_cons, List.flatten_nil, List.append_nil, hf]
  rfl

/-! ### Examples -/

/-- The hypotheses are met, and what is read. -/
example : let E : Env := ⟨fun _ => "2026/11/16 01:02:03 000001".toList, fun _ => [], fun _ _ => []⟩
    let m := { LogMessage.new false 0 1 "/x/main.cpp".toList (-3) "A::operator[]".toList INFO with message := "a]\tb".toList }
    CleanFields E m ∧ OneLine E m ∧ '\n' ∉ "Mon Nov 16".toList ∧ ∃ s fs, Constructed s fs "p".toList "d/p.x.t.log".toList 2 := by
  intro E m
  exact ⟨by unfold CleanFields; decide +kernel, by unfold OneLine; decide +kernel, by decide, sample_constructed⟩

/-- A forged line. -/
example : textLines "T\tINFO [f->g:1]\tx\nT\tINFO [h->i:2]\tforged\n".toList = ["T\tINFO [f->g:1]\tx".toList, "T\tINFO [h->i:2]\tforged".toList] := by
  decide +kernel

end G3.Props
