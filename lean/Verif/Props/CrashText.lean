import Verif.Proofs.CrashText
/-
Properties of the crash texts: C46, C50.
-/
namespace G3.Props
open G3 G3.Spec

/-! ### C46 -/

/-- The five signals with a name of their own. -/
def namedSignals : List (Int × Str) :=
  [(6, "SIGABRT".toList), (8, "SIGFPE".toList), (4, "SIGILL".toList), (11, "SIGSEGV".toList), (15, "SIGTERM".toList)]

/-- C46: the reason text is the signal's name for the five named signals. -/
theorem C46_named (level : Level) (n : Int) (name : Str) (h : (n, name) ∈ namedSignals) :
    exitReasonName level n = name := by
  simp only [namedSignals, List.mem_cons, Prod.mk.injEq, List.not_mem_nil, or_false] at h
  rcases h with ⟨rfl, rfl⟩ | ⟨rfl, rfl⟩ | ⟨rfl, rfl⟩ | ⟨rfl, rfl⟩ | ⟨rfl, rfl⟩ <;> rfl

/-- C46: any other signal is described by its number and the level's name. -/
theorem C46_other (level : Level) (n : Int) (h : ∀ name, (n, name) ∉ namedSignals) :
    exitReasonName level n = "UNKNOWN SIGNAL(".toList ++ decInt n ++ ") for ".toList ++ level.text := by
  have hn : n ≠ 6 ∧ n ≠ 8 ∧ n ≠ 11 ∧ n ≠ 4 ∧ n ≠ 15 := by
    refine ⟨?_, ?_, ?_, ?_, ?_⟩ <;> (rintro rfl; exact h _ (by simp [namedSignals]; rfl))
  unfold exitReasonName SIGABRT SIGFPE SIGSEGV SIGILL SIGTERM
  rw [if_neg hn.1, if_neg hn.2.1, if_neg hn.2.2.1, if_neg hn.2.2.2.1, if_neg hn.2.2.2.2]

/-- C46: for one level, different signals never share a text. -/
theorem C46_injective (level : Level) (m n : Int) (h : exitReasonName level m = exitReasonName level n) : m = n := by
  by_cases hm : ∃ name, (m, name) ∈ namedSignals
  · obtain ⟨a, ha⟩ := hm
    rw [C46_named level m a ha] at h
    by_cases hn : ∃ name, (n, name) ∈ namedSignals
    · obtain ⟨b, hb⟩ := hn
      rw [C46_named level n b hb] at h
      subst h
      simp only [namedSignals, List.mem_cons, Prod.mk.injEq, List.not_mem_nil, or_false] at ha hb
      rcases ha with ⟨rfl, rfl⟩ | ⟨rfl, rfl⟩ | ⟨rfl, rfl⟩ | ⟨rfl, rfl⟩ | ⟨rfl, rfl⟩ <;>
        rcases hb with ⟨rfl, e⟩ | ⟨rfl, e⟩ | ⟨rfl, e⟩ | ⟨rfl, e⟩ | ⟨rfl, e⟩ <;> first | rfl | (exact absurd e (by decide))
    · rw [C46_other level n (fun x hx => hn ⟨x, hx⟩)] at h
      simp only [namedSignals, List.mem_cons, Prod.mk.injEq, List.not_mem_nil, or_false] at ha
      rcases ha with ⟨rfl, rfl⟩ | ⟨rfl, rfl⟩ | ⟨rfl, rfl⟩ | ⟨rfl, rfl⟩ | ⟨rfl, rfl⟩ <;> simp at h
  · rw [C46_other level m (fun x hx => hm ⟨x, hx⟩)] at h
    by_cases hn : ∃ name, (n, name) ∈ namedSignals
    · obtain ⟨b, hb⟩ := hn
      rw [C46_named level n b hb] at h
      simp only [namedSignals, List.mem_cons, Prod.mk.injEq, List.not_mem_nil, or_false] at hb
      rcases hb with ⟨rfl, rfl⟩ | ⟨rfl, rfl⟩ | ⟨rfl, rfl⟩ | ⟨rfl, rfl⟩ | ⟨rfl, rfl⟩ <;> simp at h
    · rw [C46_other level n (fun x hx => hn ⟨x, hx⟩)] at h
      have hp : ∀ k, ')' ∉ decInt k := fun k => decInt_not_mem k ')' (by decide) (by unfold isDig; decide)
      have hcut : ∀ k, (cut ')' (decInt k ++ ')' :: (" for ".toList ++ level.text))).1 = decInt k := by
        intro k; rw [cut_append ')' _ _ (hp k)]
      have e : decInt m ++ ')' :: (" for ".toList ++ level.text) = decInt n ++ ')' :: (" for ".toList ++ level.text) := by
        simpa using h
      have := hcut m
      rw [e, hcut n] at this
      exact (decInt_inj this).symm

/-- C46: the text streamed by the signal handler names the signal, its number and the process. -/
theorem C46_signal_text (n pid errno code : Int) :
    signalText n pid errno code =
      "Received fatal signal: ".toList ++ exitReasonName FATAL_SIGNAL n ++ "(".toList ++ decInt n ++ ")\tPID: ".toList ++
      decInt pid ++ "\n\n***** SIGNAL ".toList ++ exitReasonName FATAL_SIGNAL n ++ "(signo= ".toList ++ decInt n ++
      " si_errno= ".toList ++ decInt errno ++ " si_code = ".toList ++ decInt code ++ ")\n".toList := by
  unfold signalText
  generalize exitReasonName FATAL_SIGNAL n = r
  simp

example : (∀ name, ((42 : Int), name) ∉ namedSignals) ∧
    exitReasonName FATAL_SIGNAL 11 = "SIGSEGV".toList := by
  constructor
  · intro name h; simp [namedSignals] at h
  · rfl

/-! ### C50 -/

/-- Text of a line for which symbol and offset were found. -/
def symbolLine (dem : Str → Option Str) (idx : Nat) (sym off : Str) : Str :=
  "\tstack dump [".toList ++ decNat idx ++ "]  ".toList ++ (dem (cstr sym)).getD sym ++ " + ".toList ++ off ++ ['\n']

/-- Text of a line shown whole. -/
def wholeLine (idx : Nat) (s : Str) : Str := "\tstack dump [".toList ++ decNat idx ++ "]  ".toList ++ s ++ ['\n']

theorem frameText_of (dem : Str → Option Str) (idx : Nat) (s a b : Str) (h : parseFrame s = .ok (a, b)) :
    frameText dem idx s = .ok (if a ≠ [] ∧ b ≠ [] then symbolLine dem idx a b else wholeLine idx s) := by
  unfold frameText
  rw [h]
  simp only
  unfold symbolLine wholeLine
  by_cases hc : a ≠ [] ∧ b ≠ []
  · rw [if_pos hc, if_pos hc]
    cases dem (cstr a) <;> rfl
  · rw [if_neg hc, if_neg hc]

/-- C50: a glibc style line `path(symbol+offset)rest` is shown as symbol (demangled if possible) and
offset. The path may itself contain brackets and plus signs. -/
theorem C50_bracket_line (dem : Str → Option Str) (idx : Nat) (path sym off rest : Str)
    (hs : sym ≠ []) (ho : off ≠ []) (hsym : ∀ x ∈ sym, x ≠ '(' ∧ x ≠ '+') (hoff : ∀ x ∈ off, x ≠ '(')
    (hrest : ∀ x ∈ rest, x ≠ '(' ∧ x ≠ ')') :
    frameText dem idx (path ++ "(".toList ++ sym ++ "+".toList ++ off ++ ")".toList ++ rest) = .ok (symbolLine dem idx sym off) := by
  have e1 : path ++ "(".toList ++ sym ++ "+".toList ++ off ++ ")".toList ++ rest =
      path ++ '(' :: (sym ++ '+' :: (off ++ ')' :: rest)) := by simp
  have e2 : path ++ '(' :: (sym ++ '+' :: (off ++ ')' :: rest)) =
      (path ++ '(' :: (sym ++ '+' :: off)) ++ ')' :: rest := by simp
  rw [e1]
  have f1 : findLastOf ['('] (path ++ '(' :: (sym ++ '+' :: (off ++ ')' :: rest))) = some path.length := by
    apply findLastOf_append (by simp)
    intro x hx
    simp only [List.mem_append, List.mem_cons] at hx
    simp only [List.mem_singleton]
    rcases hx with hx | rfl | hx | rfl | hx
    · exact (hsym x hx).1
    · decide
    · exact hoff x hx
    · decide
    · exact (hrest x hx).1
  have f2 : findLastOf [')'] (path ++ '(' :: (sym ++ '+' :: (off ++ ')' :: rest))) =
      some (path.length + 1 + sym.length + 1 + off.length) := by
    rw [e2, findLastOf_append (by simp) (fun x hx => by simpa using (hrest x hx).2)]
    simp; omega
  have hsub : subSize (path.length + 1 + sym.length + 1 + off.length) path.length 1 = some (sym.length + 1 + off.length) := by
    unfold subSize
    rw [if_pos (by omega)]
    congr 1; omega
  have hbet : substr (path ++ '(' :: (sym ++ '+' :: (off ++ ')' :: rest))) (path.length + 1) (some (sym.length + 1 + off.length)) =
      .ok (sym ++ '+' :: off) := by
    unfold substr
    rw [if_neg (by simp)]
    simp only [Except.ok.injEq]
    have : (path ++ '(' :: (sym ++ '+' :: (off ++ ')' :: rest))).drop (path.length + 1) =
        (sym ++ '+' :: off) ++ ')' :: rest := by
      simp [List.drop_append]
    rw [this, List.take_append_of_le_length (by simp; omega), List.take_of_length_le (by simp; omega)]
  have hplus : findFirstOf ['+'] (sym ++ '+' :: off) = some sym.length :=
    findFirstOf_append (by simp) (fun x hx => by simpa using (hsym x hx).2)
  have hp : parseFrame (path ++ '(' :: (sym ++ '+' :: (off ++ ')' :: rest))) = .ok (sym, off) := by
    unfold parseFrame
    rw [f1, f2]
    simp only
    rw [hsub, hbet]
    simp only
    rw [hplus]
    simp [substr, List.drop_append]
  rw [frameText_of _ _ _ _ _ hp, if_pos ⟨hs, ho⟩]

/-- C50: a macOS style line without brackets, `... _symbol + offset`, is shown as `_symbol` and offset. -/
theorem C50_plain_line (dem : Str → Option Str) (idx : Nat) (pre sym off : Str) (ho : off ≠ [])
    (hb : ∀ x ∈ pre ++ sym ++ off, x ≠ '(') (hplus : ∀ x ∈ pre ++ sym, x ≠ '+')
    (hund : ¬ HasSpaceUnderscore ('_' :: (sym ++ " + ".toList ++ off))) :
    frameText dem idx (pre ++ " _".toList ++ sym ++ " + ".toList ++ off) = .ok (symbolLine dem idx ('_' :: sym) off) := by
  have e1 : pre ++ " _".toList ++ sym ++ " + ".toList ++ off = pre ++ ' ' :: '_' :: (sym ++ " + ".toList ++ off) := by simp
  have e2 : pre ++ ' ' :: '_' :: (sym ++ " + ".toList ++ off) = (pre ++ ' ' :: '_' :: (sym ++ [' '])) ++ '+' :: (' ' :: off) := by simp
  have f1 : findLastOf ['('] (pre ++ ' ' :: '_' :: (sym ++ " + ".toList ++ off)) = none := by
    apply findLastOf_none
    intro x hx
    simp only [List.mem_singleton]
    rintro rfl
    have hb' := hb '('
    simp only [ne_eq, not_true_eq_false, imp_false, List.mem_append, not_or] at hb'
    simp [hb'] at hx
  have f2 : findFirstOf ['+'] (pre ++ ' ' :: '_' :: (sym ++ " + ".toList ++ off)) = some (pre.length + 3 + sym.length) := by
    rw [e2, findFirstOf_append (by simp)]
    · simp; omega
    · intro x hx
      simp only [List.mem_singleton]
      rintro rfl
      have hb' := hplus '+'
      simp only [ne_eq, not_true_eq_false, imp_false, List.mem_append, not_or] at hb'
      simp [hb'] at hx
  have f3 := rfind_append (a := pre) hund
  have hp : parseFrame (pre ++ ' ' :: '_' :: (sym ++ " + ".toList ++ off)) = .ok ('_' :: sym, off) := by
    unfold parseFrame
    rw [f1]
    simp only
    rw [f2, f3]
    simp only
    have hs : subSize (pre.length + 3 + sym.length) pre.length 2 = some (sym.length + 1) := by
      unfold subSize
      rw [if_pos (by omega)]
      congr 1; omega
    rw [hs]
    have s1 : substr (pre ++ ' ' :: '_' :: (sym ++ " + ".toList ++ off)) (pre.length + 1) (some (sym.length + 1)) = .ok ('_' :: sym) := by
      unfold substr
      rw [if_neg (by simp)]
      simp [List.drop_append, List.take_append]
    have s2 : substr (pre ++ ' ' :: '_' :: (sym ++ " + ".toList ++ off)) (pre.length + 3 + sym.length + 2) none = .ok off := by
      unfold substr
      rw [if_neg (by simp; omega)]
      have : pre ++ ' ' :: '_' :: (sym ++ " + ".toList ++ off) = (pre ++ ' ' :: '_' :: (sym ++ " + ".toList)) ++ off := by simp
      rw [this, List.drop_append_of_le_length (by simp; omega), List.drop_eq_nil_of_le (by simp; omega)]
      rfl
    rw [s1, s2]
  rw [e1, frameText_of _ _ _ _ _ hp, if_pos ⟨by simp, ho⟩]

/-- C50: a line without a plus sign is shown whole. -/
theorem C50_no_plus (dem : Str → Option Str) (idx : Nat) (s : Str) (h : '+' ∉ s) :
    frameText dem idx s = .ok (wholeLine idx s) := by
  have hp : parseFrame s = .ok ([], []) := by
    have hno : ∀ t : Str, (∀ x ∈ t, x ∈ s) → findFirstOf ['+'] t = none := by
      intro t ht
      rw [findFirstOf_none]
      intro x hx
      simp only [List.mem_singleton]
      rintro rfl
      exact h (ht _ hx)
    unfold parseFrame
    split
    · rename_i i j hi hj
      have hlt := findLastOf_lt hi
      unfold substr
      rw [if_neg (by omega)]
      cases subSize j i 1 with
      | none => simp only; rw [hno _ (fun x hx => List.mem_of_mem_drop hx)]
      | some n => simp only; rw [hno _ (fun x hx => List.mem_of_mem_drop (List.mem_of_mem_take hx))]
    · rw [hno s (fun x hx => hx)]
  rw [frameText_of _ _ _ _ _ hp, if_neg (by simp)]

/-- C50: a line containing both brackets never makes the dump fail. -/
theorem C50_brackets_total (dem : Str → Option Str) (idx : Nat) (s : Str) (h1 : '(' ∈ s) (h2 : ')' ∈ s) :
    ∃ t, frameText dem idx s = .ok t := by
  obtain ⟨i, hi⟩ := findLastOf_isSome h1 (show '(' ∈ ['('] by simp)
  obtain ⟨j, hj⟩ := findLastOf_isSome h2 (show ')' ∈ [')'] by simp)
  have hlt := findLastOf_lt hi
  have key : ∃ p, parseFrame s = .ok p := by
    unfold parseFrame
    rw [hi, hj]
    simp only
    have : ∃ b, substr s (i + 1) (subSize j i 1) = .ok b := by
      unfold substr
      rw [if_neg (by omega)]
      cases subSize j i 1 <;> exact ⟨_, rfl⟩
    obtain ⟨b, hb⟩ := this
    rw [hb]
    simp only
    cases hp : findFirstOf ['+'] b with
    | none => exact ⟨_, rfl⟩
    | some k =>
      obtain ⟨a, c, d, e, hl, _, _⟩ := findFirstOf_some hp
      have hk : k < b.length := by rw [e]; simp; omega
      simp only [substr]
      rw [if_neg (by omega), if_neg (by omega)]
      exact ⟨_, rfl⟩
  obtain ⟨⟨a, b⟩, hp⟩ := key
  exact ⟨_, frameText_of _ _ _ _ _ hp⟩

/-- What the dump shows for the text found between the brackets of a line: split at the first plus sign. -/
def splitShown (dem : Str → Option Str) (idx : Nat) (s between : Str) (t : Str) : Prop :=
  ('+' ∉ between ∧ t = wholeLine idx s) ∨
  ∃ a b, between = a ++ '+' :: b ∧ '+' ∉ a ∧
    t = if a = [] ∨ b = [] then wholeLine idx s else symbolLine dem idx a b

theorem splitShown_of {dem : Str → Option Str} {idx : Nat} {s between : Str} {p : Str × Str}
    (hp : parseFrame s = .ok p)
    (he : (match findFirstOf ['+'] between with
      | none => (.ok ([], []) : Except DumpErr (Str × Str))
      | some plus =>
        match substr between 0 (some plus), substr between (plus + 1) none with
        | .ok a, .ok b => .ok (a, b)
        | .error e, _ => .error e
        | _, .error e => .error e) = .ok p) :
    ∃ t, frameText dem idx s = .ok t ∧ splitShown dem idx s between t := by
  refine ⟨_, frameText_of dem idx s p.1 p.2 hp, ?_⟩
  cases hf : findFirstOf ['+'] between with
  | none =>
    rw [hf] at he
    simp only [Except.ok.injEq] at he
    subst he
    left
    refine ⟨fun hm => findFirstOf_none.mp hf _ hm (by simp), by simp⟩
  | some k =>
    rw [hf] at he
    obtain ⟨a, c, b, e, hl, hc, ha⟩ := findFirstOf_some hf
    simp only [List.mem_singleton] at hc ha
    subst hc
    right
    refine ⟨a, b, e, fun hm => ha _ hm rfl, ?_⟩
    subst hl
    subst e
    have hdr : (a ++ '+' :: b).drop (a.length + 1) = b := by
      rw [List.drop_append, List.drop_eq_nil_of_le (by omega)]; simp
    simp [substr, hdr] at he
    subst he
    simp only
    by_cases h1 : a = [] <;> by_cases h2 : b = [] <;> simp [h1, h2]

/-- C50: every line with a `)` after its last `(`. What lies between the last `(` and the last `)` decides; when
it is empty, or has no plus sign, or nothing on one side of the first plus sign, the line is shown whole. -/
theorem C50_bracket_exact (dem : Str → Option Str) (idx : Nat) (path between rest : Str)
    (hb : '(' ∉ between) (hr : '(' ∉ rest ∧ ')' ∉ rest) :
    ∃ t, frameText dem idx (path ++ '(' :: (between ++ ')' :: rest)) = .ok t ∧
      splitShown dem idx (path ++ '(' :: (between ++ ')' :: rest)) between t := by
  have e2 : path ++ '(' :: (between ++ ')' :: rest) = (path ++ '(' :: between) ++ ')' :: rest := by simp
  have f1 : findLastOf ['('] (path ++ '(' :: (between ++ ')' :: rest)) = some path.length := by
    apply findLastOf_append (by simp)
    intro x hx
    simp only [List.mem_append, List.mem_cons] at hx
    simp only [List.mem_singleton]
    rintro rfl
    rcases hx with hx | hx | hx
    · exact hb hx
    · exact absurd hx (by decide)
    · exact hr.1 hx
  have f2 : findLastOf [')'] (path ++ '(' :: (between ++ ')' :: rest)) = some (path.length + 1 + between.length) := by
    rw [e2, findLastOf_append (by simp) (fun x hx => by simp only [List.mem_singleton]; rintro rfl; exact hr.2 hx)]
    simp; omega
  have hsub : subSize (path.length + 1 + between.length) path.length 1 = some between.length := by
    unfold subSize
    rw [if_pos (by omega)]
    congr 1; omega
  have hbet : substr (path ++ '(' :: (between ++ ')' :: rest)) (path.length + 1) (some between.length) = .ok between := by
    have hdr : (path ++ '(' :: (between ++ ')' :: rest)).drop (path.length + 1) = between ++ ')' :: rest := by
      rw [List.drop_append, List.drop_eq_nil_of_le (by omega)]; simp
    unfold substr
    rw [if_neg (by simp), hdr]
    simp
  have hpe : parseFrame (path ++ '(' :: (between ++ ')' :: rest)) = (match findFirstOf ['+'] between with
      | none => (.ok ([], []) : Except DumpErr (Str × Str))
      | some plus =>
        match substr between 0 (some plus), substr between (plus + 1) none with
        | .ok a, .ok b => .ok (a, b)
        | .error e, _ => .error e
        | _, .error e => .error e) := by
    conv_lhs => unfold parseFrame
    rw [f1, f2]
    simp only
    rw [hsub, hbet]
    rfl
  have hok : ∃ p, parseFrame (path ++ '(' :: (between ++ ')' :: rest)) = .ok p := by
    obtain ⟨t, ht⟩ := C50_brackets_total dem idx (path ++ '(' :: (between ++ ')' :: rest)) (by simp) (by simp)
    unfold frameText at ht
    cases hp : parseFrame (path ++ '(' :: (between ++ ')' :: rest)) with
    | error e => rw [hp] at ht; simp at ht
    | ok p => exact ⟨p, rfl⟩
  obtain ⟨p, hp⟩ := hok
  exact splitShown_of hp (hpe ▸ hp)

/-- C50: every line whose last `)` comes before its last `(`: everything after the last `(` decides. -/
theorem C50_bracket_reversed (dem : Str → Option Str) (idx : Nat) (path rest : Str)
    (hp : ')' ∈ path) (hr : '(' ∉ rest ∧ ')' ∉ rest) :
    ∃ t, frameText dem idx (path ++ '(' :: rest) = .ok t ∧ splitShown dem idx (path ++ '(' :: rest) rest t := by
  have f1 : findLastOf ['('] (path ++ '(' :: rest) = some path.length := by
    apply findLastOf_append (by simp)
    intro x hx
    simp only [List.mem_singleton]
    rintro rfl
    exact hr.1 hx
  obtain ⟨j, hj⟩ := findLastOf_isSome hp (show ')' ∈ [')'] by simp)
  obtain ⟨a, c, b, e, hl, hc, hb⟩ := (findLastOf_spec [')'] path).1 j hj
  simp only [List.mem_singleton] at hc hb
  subst hc
  have hjlt := findLastOf_lt hj
  have f2 : findLastOf [')'] (path ++ '(' :: rest) = some j := by
    have : path ++ '(' :: rest = a ++ ')' :: (b ++ '(' :: rest) := by rw [e]; simp
    rw [this, findLastOf_append (by simp), hl]
    intro x hx
    simp only [List.mem_append, List.mem_cons] at hx
    simp only [List.mem_singleton]
    rintro rfl
    rcases hx with hx | hx | hx
    · exact hb _ hx rfl
    · exact absurd hx (by decide)
    · exact hr.2 hx
  have hsub : subSize j path.length 1 = none := by
    unfold subSize
    rw [if_neg (by omega)]
  have hbet : substr (path ++ '(' :: rest) (path.length + 1) none = .ok rest := by
    unfold substr
    rw [if_neg (by simp)]
    simp [List.drop_append]
  have hpe : parseFrame (path ++ '(' :: rest) = (match findFirstOf ['+'] rest with
      | none => (.ok ([], []) : Except DumpErr (Str × Str))
      | some plus =>
        match substr rest 0 (some plus), substr rest (plus + 1) none with
        | .ok a, .ok b => .ok (a, b)
        | .error e, _ => .error e
        | _, .error e => .error e) := by
    conv_lhs => unfold parseFrame
    rw [f1, f2]
    simp only
    rw [hsub, hbet]
    rfl
  have hok : ∃ p, parseFrame (path ++ '(' :: rest) = .ok p := by
    obtain ⟨t, ht⟩ := C50_brackets_total dem idx (path ++ '(' :: rest) (by simp) (by simp [hp])
    unfold frameText at ht
    cases hpf : parseFrame (path ++ '(' :: rest) with
    | error e => rw [hpf] at ht; simp at ht
    | ok p => exact ⟨p, rfl⟩
  obtain ⟨p, hpf⟩ := hok
  exact splitShown_of hpf (hpe ▸ hpf)

/-- C50: every line without a bracket pair that has a plus sign, something after it, and `" _"`. The name starts
at the last `" _"`; it ends one character before the first plus sign, or at the end of the line when that plus sign
comes before the name. The offset starts two characters after that plus sign. -/
theorem C50_plain_exact (dem : Str → Option Str) (idx : Nat) (s a b c d : Str) (x : Char)
    (hbr : ¬ ('(' ∈ s ∧ ')' ∈ s)) (e1 : s = a ++ '+' :: x :: b) (ha : '+' ∉ a)
    (e2 : s = c ++ ' ' :: '_' :: d) (hd : ¬ HasSpaceUnderscore ('_' :: d)) :
    frameText dem idx s = .ok
      (let name := if a.length < c.length then '_' :: d else ('_' :: d).take (a.length - (c.length + 2))
       if name = [] ∨ b = [] then wholeLine idx s else symbolLine dem idx name b) := by
  have hnb : findLastOf ['('] s = none ∨ findLastOf [')'] s = none := by
    by_cases h1 : '(' ∈ s
    · right
      apply findLastOf_none
      intro y hy
      simp only [List.mem_singleton]
      rintro rfl
      exact hbr ⟨h1, hy⟩
    · left
      apply findLastOf_none
      intro y hy
      simp only [List.mem_singleton]
      rintro rfl
      exact h1 hy
  have hpf : parseFrame s = (match findFirstOf ['+'] s, rfindSpaceUnderscore s with
      | some plus, some under =>
        match substr s (under + 1) (subSize plus under 2), substr s (plus + 2) none with
        | .ok a, .ok b => .ok (a, b)
        | .error e, _ => .error e
        | _, .error e => .error e
      | _, _ => .ok ([], [])) := by
    unfold parseFrame
    rcases hnb with h | h
    · rw [h]
      cases findLastOf [')'] s <;> rfl
    · rw [h]
      cases findLastOf ['('] s <;> rfl
  have f1 : findFirstOf ['+'] s = some a.length := by
    rw [e1]
    exact findFirstOf_append (by simp) (fun y hy => by simp only [List.mem_singleton]; rintro rfl; exact ha hy)
  have f2 : rfindSpaceUnderscore s = some c.length := by rw [e2]; exact rfind_append hd
  -- the plus sign is neither the blank nor the underscore
  have hne1 : a.length ≠ c.length := by
    intro hl
    have h := e1.symm.trans e2
    have := (List.append_inj h hl).2
    simp at this
  have hne2 : a.length ≠ c.length + 1 := by
    intro hl
    have h : a ++ '+' :: x :: b = (c ++ [' ']) ++ '_' :: d := by rw [← e1, e2]; simp
    have := (List.append_inj h (by simp [hl])).2
    simp at this
  have s2 : substr s (a.length + 2) none = .ok b := by
    unfold substr
    rw [if_neg (by rw [e1]; simp)]
    rw [e1]
    simp [List.drop_append]
  have s1 : substr s (c.length + 1) (subSize a.length c.length 2) =
      .ok (if a.length < c.length then '_' :: d else ('_' :: d).take (a.length - (c.length + 2))) := by
    have hdrop : s.drop (c.length + 1) = '_' :: d := by rw [e2]; simp [List.drop_append]
    unfold substr
    rw [if_neg (by rw [e2]; simp)]
    by_cases hlt : a.length < c.length
    · unfold subSize
      rw [if_neg (by omega), if_pos hlt]
      simp only [hdrop]
    · unfold subSize
      rw [if_pos (by omega), if_neg hlt]
      simp only [hdrop, Nat.sub_sub]
  rw [f1, f2] at hpf
  simp only at hpf
  rw [s1, s2] at hpf
  rw [frameText_of _ _ _ _ _ hpf]
  congr 1
  simp only [ne_eq]
  generalize (if a.length < c.length then '_' :: d else ('_' :: d).take (a.length - (c.length + 2))) = name
  by_cases h1 : name = [] <;> by_cases h2 : b = [] <;> simp [h1, h2]

/-- C50: a line without a bracket pair and without `" _"` is shown whole. -/
theorem C50_plain_no_name (dem : Str → Option Str) (idx : Nat) (s : Str)
    (hbr : ¬ ('(' ∈ s ∧ ')' ∈ s)) (h : ¬ HasSpaceUnderscore s) :
    frameText dem idx s = .ok (wholeLine idx s) := by
  have hnb : findLastOf ['('] s = none ∨ findLastOf [')'] s = none := by
    by_cases h1 : '(' ∈ s
    · right
      apply findLastOf_none
      intro y hy
      simp only [List.mem_singleton]
      rintro rfl
      exact hbr ⟨h1, hy⟩
    · left
      apply findLastOf_none
      intro y hy
      simp only [List.mem_singleton]
      rintro rfl
      exact h1 hy
  have hpf : parseFrame s = .ok ([], []) := by
    unfold parseFrame
    rcases hnb with h' | h'
    · rw [h', rfind_none.mpr h]
      cases findLastOf [')'] s <;> cases findFirstOf ['+'] s <;> rfl
    · rw [h', rfind_none.mpr h]
      cases findLastOf ['('] s <;> cases findFirstOf ['+'] s <;> rfl
  rw [frameText_of _ _ _ _ _ hpf, if_neg (by simp)]

/-- The hypotheses of the exact theorems can be met: an empty bracket pair, a reversed pair, a plain line. -/
example (dem : Str → Option Str) :
    (∃ t, frameText dem 3 ("lib(".toList ++ [] ++ ")+0x5".toList) = .ok t ∧ t = wholeLine 3 "lib()+0x5".toList) ∧
    (∃ t, frameText dem 3 "a)b(f+1".toList = .ok t ∧ t = symbolLine dem 3 "f".toList "1".toList) ∧
    frameText dem 3 "0 app _main + 52".toList = .ok (symbolLine dem 3 "_main".toList "52".toList) ∧
    frameText dem 3 "a+bc _f".toList = .ok (symbolLine dem 3 "_f".toList "c _f".toList) := by
  refine ⟨?_, ?_, ?_, ?_⟩
  · obtain ⟨t, ht, hs⟩ := C50_bracket_exact dem 3 "lib".toList [] "+0x5".toList (by simp) (by decide)
    refine ⟨t, by simpa using ht, ?_⟩
    rcases hs with ⟨_, hs⟩ | ⟨a, b, e, _⟩
    · simpa using hs
    · simp at e
  · obtain ⟨t, ht, hs⟩ := C50_bracket_reversed dem 3 "a)b".toList "f+1".toList (by decide) (by decide)
    refine ⟨t, by simpa using ht, ?_⟩
    rcases hs with ⟨hn, _⟩ | ⟨a, b, e, ha, hs⟩
    · exact absurd (by decide) hn
    · match a, e with
      | [], e => simp at e
      | [y], e =>
        simp at e
        obtain ⟨rfl, rfl⟩ := e
        simpa using hs
      | y :: z :: a, e =>
        simp at e
        obtain ⟨rfl, rfl, _⟩ := e
        simp at ha
  · have := C50_plain_exact dem 3 "0 app _main + 52".toList "0 app _main ".toList "52".toList "0 app".toList
      "main + 52".toList ' ' (by decide) (by decide) (by decide) (by decide) (rfind_none.mp (by decide))
    simpa using this
  · have := C50_plain_exact dem 3 "a+bc _f".toList "a".toList "c _f".toList "a+bc".toList
      "f".toList 'b' (by decide) (by decide) (by decide) (by decide) (rfind_none.mp (by decide))
    simpa using this

/-- C50: exactly which lines make the dump throw: no bracket pair, `" _"` present, and the first plus sign
is the last character. -/
theorem C50_fails_iff (dem : Str → Option Str) (idx : Nat) (s : Str) :
    frameText dem idx s = .error .outOfRange ↔
      ¬ ('(' ∈ s ∧ ')' ∈ s) ∧ HasSpaceUnderscore s ∧ ∃ a, s = a ++ ['+'] ∧ '+' ∉ a := by
  by_cases hbr : '(' ∈ s ∧ ')' ∈ s
  · obtain ⟨t, ht⟩ := C50_brackets_total dem idx s hbr.1 hbr.2
    rw [ht]; simp [hbr]
  · have hnb : findLastOf ['('] s = none ∨ findLastOf [')'] s = none := by
      by_cases h1 : '(' ∈ s
      · right
        apply findLastOf_none
        intro x hx
        simp only [List.mem_singleton]
        rintro rfl
        exact hbr ⟨h1, hx⟩
      · left
        apply findLastOf_none
        intro x hx
        simp only [List.mem_singleton]
        rintro rfl
        exact h1 hx
    have hpf : parseFrame s = (match findFirstOf ['+'] s, rfindSpaceUnderscore s with
        | some plus, some under =>
          match substr s (under + 1) (subSize plus under 2), substr s (plus + 2) none with
          | .ok a, .ok b => .ok (a, b)
          | .error e, _ => .error e
          | _, .error e => .error e
        | _, _ => .ok ([], [])) := by
      unfold parseFrame
      rcases hnb with h | h
      · rw [h]
        cases findLastOf [')'] s <;> rfl
      · rw [h]
        cases findLastOf ['('] s <;> rfl
    cases hpl : findFirstOf ['+'] s with
    | none =>
      rw [hpl] at hpf
      rw [frameText_of _ _ _ _ _ hpf]
      have := findFirstOf_none.mp hpl
      simp only [reduceCtorEq, false_iff, not_and]
      rintro _ _ ⟨a, e, _⟩
      exact this '+' (by rw [e]; simp) (by simp)
    | some k =>
      cases hr : rfindSpaceUnderscore s with
      | none =>
        rw [hpl, hr] at hpf
        rw [frameText_of _ _ _ _ _ hpf]
        simp only [reduceCtorEq, false_iff, not_and]
        intro _ hh
        exact absurd hh (rfind_none.mp hr)
      | some u =>
        have hlt := rfind_lt hr
        have hhas : HasSpaceUnderscore s := by
          by_contra hn; rw [rfind_none.mpr hn] at hr; cases hr
        obtain ⟨a, c, d, e, hl, hc, ha⟩ := findFirstOf_some hpl
        simp only [List.mem_singleton] at hc ha
        subst hc
        have hlen : s.length = k + 1 + d.length := by rw [e]; simp; omega
        rw [hpl, hr] at hpf
        simp only at hpf
        have s1 : ∃ x, substr s (u + 1) (subSize k u 2) = .ok x := by
          unfold substr
          rw [if_neg (by omega)]
          cases subSize k u 2 <;> exact ⟨_, rfl⟩
        obtain ⟨x, hx⟩ := s1
        rw [hx] at hpf
        cases d with
        | nil =>
          have s2 : substr s (k + 2) none = .error .outOfRange := by
            unfold substr
            simp only [List.length_nil] at hlen
            rw [if_pos (by omega)]
          rw [s2] at hpf
          simp only at hpf
          have : frameText dem idx s = .error .outOfRange := by unfold frameText; rw [hpf]
          rw [this]
          simp only [true_iff]
          exact ⟨hbr, hhas, a, e, fun hm => ha '+' hm rfl⟩
        | cons y d =>
          have s2 : substr s (k + 2) none = .ok (s.drop (k + 2)) := by
            unfold substr
            simp only [List.length_cons] at hlen
            rw [if_neg (by omega)]
          rw [s2] at hpf
          simp only at hpf
          rw [frameText_of _ _ _ _ _ hpf]
          simp only [reduceCtorEq, false_iff, not_and]
          rintro _ _ ⟨b, e', hb⟩
          -- the first plus would be the last character
          have hbl : b.length = k + 1 + d.length := by
            have := congrArg List.length e'
            simp only [List.length_append, List.length_singleton] at this
            simp only [List.length_cons] at hlen
            omega
          rw [e] at e'
          have := List.append_eq_append_iff.mp e'
          rcases this with ⟨w, h1, h2⟩ | ⟨w, h1, h2⟩
          · cases w with
            | nil => simp at h1; rw [h1] at hbl; omega
            | cons z w =>
              simp only [List.cons_append, List.cons.injEq] at h2
              exact hb (by rw [h1, ← h2.1]; simp)
          · have := congrArg List.length h1
            simp only [List.length_append] at this
            omega

/-- C50: the whole dump is the concatenation of the lines of all frames but the first, numbered from 1,
and fails only if one of these lines fails. -/
theorem C50_dump (dem : Str → Option Str) (fs : List Str) (h : ∀ s ∈ (fs.take 50).drop 1, ∀ i, ∃ t, frameText dem i s = .ok t) :
    ∃ ts, stackdump dem none (some fs) = .ok ts ∧
      ∃ lines : List Str, ts = lines.flatten ∧ lines.length = min fs.length 50 - 1 ∧
        ∀ i l, lines[i]? = some l → ∃ s, fs[i + 1]? = some s ∧ frameText dem (i + 1) s = .ok l := by
  have loop : ∀ (ss : List Str) (k : Nat), (∀ s ∈ ss, ∀ i, ∃ t, frameText dem i s = .ok t) →
      ∃ ts, dumpLoop dem k ss = .ok ts ∧ ∃ lines : List Str, ts = lines.flatten ∧ lines.length = ss.length ∧
        ∀ i l, lines[i]? = some l → ∃ s, ss[i]? = some s ∧ frameText dem (k + i) s = .ok l := by
    intro ss
    induction ss with
    | nil => intro k _; exact ⟨[], rfl, [], rfl, rfl, by simp⟩
    | cons s ss ih =>
      intro k hk
      obtain ⟨t, ht⟩ := hk s (by simp) k
      obtain ⟨ts, h1, lines, h2, h3, h4⟩ := ih (k + 1) (fun s hs => hk s (List.mem_cons_of_mem _ hs))
      refine ⟨t ++ ts, ?_, t :: lines, by rw [h2]; simp, by simp [h3], ?_⟩
      · unfold dumpLoop; rw [ht, h1]
      · intro i l hl
        cases i with
        | zero =>
          simp only [List.getElem?_cons_zero, Option.some.injEq] at hl
          exact ⟨s, by simp, by rw [← hl]; exact ht⟩
        | succ i =>
          simp only [List.getElem?_cons_succ] at hl
          obtain ⟨s', hs', hf⟩ := h4 i l hl
          exact ⟨s', by simpa using hs', by rw [show k + (i + 1) = k + 1 + i by omega]; exact hf⟩
  obtain ⟨ts, h1, lines, h2, h3, h4⟩ := loop _ 1 h
  refine ⟨ts, h1, lines, h2, by rw [h3]; simp; omega, ?_⟩
  intro i l hl
  obtain ⟨s, hs, hf⟩ := h4 i l hl
  refine ⟨s, ?_, by rw [Nat.add_comm]; exact hf⟩
  have hi : i < ((fs.take 50).drop 1).length := by
    rw [List.getElem?_eq_some_iff] at hs
    exact hs.1
  rw [List.getElem?_drop, List.getElem?_take] at hs
  split at hs
  · rw [Nat.add_comm]; exact hs
  · cases hs

/-- C50: a dump supplied by the caller is used unchanged, an empty one is ignored. -/
theorem C50_raw (dem : Str → Option Str) (r : Str) (fs : Option (List Str)) :
    stackdump dem (some r) fs = if r = [] then stackdump dem none fs else .ok r := by
  unfold stackdump
  by_cases h : r = []
  · simp [h]
  · simp [h]

example : frameText (fun _ => none) 3 "./prog(+x)(main+0x1d) [0x40]".toList =
    .ok (symbolLine (fun _ => none) 3 "main".toList "0x1d".toList) :=
  C50_bracket_line _ 3 "./prog(+x)".toList "main".toList "0x1d".toList " [0x40]".toList
    (by decide) (by decide) (by decide) (by decide) (by decide)

example : ¬ HasSpaceUnderscore ('_' :: ("main".toList ++ " + ".toList ++ "41".toList)) := by
  rw [← rfind_none]; decide

example : frameText (fun _ => none) 1 "0 x _a+".toList = .error .outOfRange := by
  rw [C50_fails_iff]
  exact ⟨by decide, ⟨"0 x".toList, "a+".toList, by decide⟩, "0 x _a".toList, by decide, by decide⟩

end G3.Props
