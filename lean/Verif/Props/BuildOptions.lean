import Verif.Spec.BuildOptions
import Mathlib.Tactic.ByContra
/-
C120: the options of the build reach every program that includes the headers.
-/
namespace G3.Props
open G3 G3.Spec

theorem headLines_ne (s : Str) : textLines s ≠ [] := by
  cases s with
  | nil => simp [textLines]
  | cons c cs => unfold textLines; split
                 · simp
                 · split <;> simp

theorem headLines_line (a b : Str) (h : '\n' ∉ a) : textLines (a ++ '\n' :: b) = a :: textLines b := by
  induction a with
  | nil => simp [textLines]
  | cons c cs ih =>
    have hc : c ≠ '\n' := fun e => h (e ▸ List.mem_cons_self)
    show textLines (c :: (cs ++ '\n' :: b)) = _
    rw [textLines, if_neg hc, ih (fun hm => h (List.mem_cons_of_mem _ hm))]

theorem headLines_append (a b : Str) : textLines (a ++ '\n' :: b) = textLines a ++ textLines b := by
  induction a with
  | nil => simp [textLines]
  | cons c cs ih =>
    show textLines (c :: (cs ++ '\n' :: b)) = _
    rw [textLines, textLines, ih]
    split
    · rfl
    · cases h : textLines cs with
      | nil => exact absurd h (headLines_ne cs)
      | cons l ls => rfl

/-- The state of the comments after some lines. -/
def openAfter : Bool → List Str → Bool
  | c, [] => c
  | c, l :: ls => openAfter (headerLine c l).1 ls

theorem headerLines_append (a b : List Str) : ∀ c, headerLines c (a ++ b) = headerLines c a ++ headerLines (openAfter c a) b := by
  induction a with
  | nil => intro c; rfl
  | cons l ls ih => intro c; simp only [List.cons_append, headerLines, openAfter, ih, List.append_assoc]

/-- Name and value of a definition. -/
def nameValue (d : Str) : Str × Str := (d.takeWhile (· ≠ ' '), (d.dropWhile (· ≠ ' ')).drop 1)

/-- The text of the definitions. -/
def defText : List Str → Str
  | [] => []
  | d :: ds => "\n#define ".toList ++ d ++ "\n".toList ++ defText ds

theorem defText_cons (d : Str) (ds : List Str) : defText (d :: ds) = "\n#define ".toList ++ d ++ "\n".toList ++ defText ds := rfl
theorem defText_nil : defText [] = [] := rfl

theorem generated_foldl (defs : List Str) : ∀ t : Str, defs.foldl (fun c d => c ++ "\n#define ".toList ++ d ++ "\n".toList) t = t ++ defText defs := by
  generalize hx : "\n#define ".toList = x
  generalize hy : "\n".toList = y
  induction defs with
  | nil => intro t; rw [defText_nil, List.append_nil]; rfl
  | cons d ds ih =>
    intro t
    rw [List.foldl_cons, ih]
    rw [defText_cons, hx, hy]
    simp only [List.append_assoc]

theorem generated_eq (defs : List Str) : generatedContent defs = generatedTop ++ defText defs := generated_foldl defs _

theorem headerLine_define (d : Str) : headerLine false ("#define ".toList ++ d) = (false, some (nameValue d)) := by
  unfold headerLine
  have h1 : "/*".toList.isPrefixOf ("#define ".toList ++ d) = false := rfl
  have h2 : "#define ".toList.isPrefixOf ("#define ".toList ++ d) = true := by
    rw [List.isPrefixOf_iff_prefix]; exact List.prefix_append _ _
  rw [h1, h2]
  rfl

/-- The definitions as the preprocessor reads them; `x` is an unfinished line before. -/
theorem defText_lines (defs : List Str) (h : ∀ d ∈ defs, '\n' ∉ d) : headerLines false (textLines (defText defs)) = defs.map nameValue := by
  induction defs with
  | nil => rfl
  | cons d ds ih =>
    have e : defText (d :: ds) = [] ++ '\n' :: (("#define ".toList ++ d) ++ '\n' :: defText ds) := by
      have h1 : "\n#define ".toList = '\n' :: "#define ".toList := by decide
      have h2 : "\n".toList = ['\n'] := rfl
      rw [defText_cons, h1, h2]
      simp only [List.nil_append, List.cons_append, List.append_assoc]
    have hn : '\n' ∉ "#define ".toList ++ d := by
      rw [List.mem_append, not_or]
      exact ⟨by decide, h d (by simp)⟩
    rw [e, headLines_line [] _ (by simp), headLines_line _ _ hn]
    have h0 : headerLine false [] = (false, none) := rfl
    rw [headerLines, headerLines, h0, headerLine_define, ih (fun x hx => h x (List.mem_cons_of_mem _ hx))]
    rfl

theorem top_lines : ∃ t, generatedTop = t ++ ['\n'] ∧ headerLines false (textLines t) = [] ∧ openAfter false (textLines t) = false :=
  ⟨generatedTop.dropLast, by decide +kernel, by decide +kernel, by decide +kernel⟩

/-- The preprocessor reads from the generated header exactly the definitions, in their order, whatever they are. -/
theorem C120_header (defs : List Str) (h : ∀ d ∈ defs, '\n' ∉ d) : macrosAfter [] (generatedContent defs) = defs.map nameValue := by
  obtain ⟨t, e, h1, h2⟩ := top_lines
  show headerLines false (textLines (generatedContent defs)) = _
  rw [generated_eq, e, List.append_assoc]
  show headerLines false (textLines (t ++ '\n' :: defText defs)) = _
  rw [headLines_append, headerLines_append, h1, h2, defText_lines defs h]
  rfl

/-- The names and values that the options give, read off. -/
def named (tc : Toolchain) (o : BuildOptions) : List (Str × Str) := (g3Definitions tc o).map nameValue

theorem mem_if {α : Type} {p : Prop} [Decidable p] {a b : List α} {x : α} (h : x ∈ if p then a else b) : x ∈ a ∨ x ∈ b := by
  split at h
  · exact Or.inl h
  · exact Or.inr h

/-- Everything that may be among the definitions. -/
def allDefinitions : List Str :=
  ["G3_DYNAMIC_LOGGING".toList, "CHANGE_G3LOG_DEBUG_TO_DBUG".toList, "G3LOG_DEBUG DBUG".toList, "G3LOG_DEBUG DEBUG".toList, "WINDOWS_FUNCSIG".toList,
   "PRETTY_FUNCTION".toList, "G3_DYNAMIC_MAX_MESSAGE_SIZE".toList, "G3_LOG_FULL_FILENAME".toList, "DISABLE_FATAL_SIGNALHANDLING".toList,
   "DISABLE_VECTORED_EXCEPTIONHANDLING".toList, "DEBUG_BREAK_AT_FATAL_SIGNAL".toList]

theorem definitions_known (tc : Toolchain) (o : BuildOptions) : ∀ d ∈ g3Definitions tc o, d ∈ allDefinitions := by
  obtain ⟨b0, b1, b2, b3, b4, b5, b6, b7, b8, b9⟩ := o
  unfold g3Definitions
  cases tc.windows <;> revert b0 b1 b2 b3 b4 b5 b6 b7 b8 b9 <;> decide +kernel

theorem definitions_lines (tc : Toolchain) (o : BuildOptions) : ∀ d ∈ g3Definitions tc o, '\n' ∉ d ∧ ';' ∉ d := by
  have h : ∀ d ∈ allDefinitions, '\n' ∉ d ∧ ';' ∉ d := by decide +kernel
  exact fun d hd => h d (definitions_known tc o d hd)

theorem isDefined_append (a b : List (Str × Str)) (x : Str) : isDefined (a ++ b) x = (isDefined a x || isDefined b x) := by simp [isDefined]

theorem named_defined (tc : Toolchain) (o : BuildOptions) :
    isDefined (named tc o) "G3_DYNAMIC_LOGGING".toList = o.dynamicLevels ∧
    isDefined (named tc o) "CHANGE_G3LOG_DEBUG_TO_DBUG".toList = o.dbug ∧
    isDefined (named tc o) "WINDOWS_FUNCSIG".toList = o.funcsig ∧
    isDefined (named tc o) "PRETTY_FUNCTION".toList = o.pretty ∧
    isDefined (named tc o) "G3_DYNAMIC_MAX_MESSAGE_SIZE".toList = o.dynamicSize ∧
    isDefined (named tc o) "G3_LOG_FULL_FILENAME".toList = o.fullFilename ∧
    isDefined (named tc o) "DISABLE_FATAL_SIGNALHANDLING".toList = !o.fatalSignals ∧
    isDefined (named tc o) "DISABLE_VECTORED_EXCEPTIONHANDLING".toList = (tc.windows && !o.vectored) ∧
    isDefined (named tc o) "DEBUG_BREAK_AT_FATAL_SIGNAL".toList = (tc.windows && o.debugBreak) ∧
    isDefined (named tc o) "DEBUG".toList = false ∧ isDefined (named tc o) "DBUG".toList = false ∧
    ((named tc o).find? fun p => p.1 == "G3LOG_DEBUG".toList) = some ("G3LOG_DEBUG".toList, if o.dbug then "DBUG".toList else "DEBUG".toList) := by
  obtain ⟨b0, b1, b2, b3, b4, b5, b6, b7, b8, b9⟩ := o
  unfold named g3Definitions
  cases tc.windows <;> revert b0 b1 b2 b3 b4 b5 b6 b7 b8 b9 <;> decide +kernel

theorem top_plain : ';' ∉ generatedTop := by decide +kernel

theorem defText_plain (defs : List Str) (h : ∀ d ∈ defs, ';' ∉ d) : ';' ∉ defText defs := by
  induction defs with
  | nil => simp [defText_nil]
  | cons d ds ih =>
    rw [defText_cons]
    simp only [List.mem_append, not_or]
    exact ⟨⟨⟨by decide, h d (by simp)⟩, by decide⟩, ih fun x hx => h x (List.mem_cons_of_mem _ hx)⟩

theorem fileWrite_content (tc : Toolchain) (o : BuildOptions) :
    fileWrite (generatedContent (g3Definitions tc o)) = generatedContent (g3Definitions tc o) := by
  unfold fileWrite
  rw [List.filter_eq_self]
  intro c hc
  have hn : ';' ∉ generatedContent (g3Definitions tc o) := by
    rw [generated_eq, List.mem_append, not_or]
    exact ⟨top_plain, defText_plain _ fun d hd => (definitions_lines tc o d hd).2⟩
  have : c ≠ ';' := fun e => hn (e ▸ hc)
  simpa using this

theorem content_ne (defs : List Str) : generatedContent defs ≠ [] := by
  rw [generated_eq]
  intro h
  have := (List.append_eq_nil_iff.mp h).1
  exact absurd this (by decide +kernel)

/-- C120, the header: after a run of CMake (for iOS: none) it has the text that belongs to the options, whatever was there before; it has been written if and only if
it had another text. -/
theorem C120_written (tc : Toolchain) (o : BuildOptions) (old : Option Str) (hi : o.ios = false) :
    (configureHeader tc o old).1 = some (generatedContent (g3Definitions tc o)) ∧
    ((configureHeader tc o old).2 = true ↔ old ≠ some (generatedContent (g3Definitions tc o))) := by
  have hw := fileWrite_content tc o
  have hne := content_ne (g3Definitions tc o)
  unfold configureHeader
  generalize generatedContent (g3Definitions tc o) = c at *
  rw [hi]
  cases old with
  | none =>
    simp only [Bool.false_eq_true, if_false]
    rw [if_neg (fun e => hne e.symm), hw]
    simp
  | some t =>
    simp only [Bool.false_eq_true, if_false]
    by_cases h : t = c
    · rw [if_pos h, h]; simp
    · rw [if_neg h, hw]; simp [h]

theorem named_off (tc : Toolchain) (o : BuildOptions) (mine : List (Str × Str)) :
    macrosAfter mine (generatedContent (g3Definitions tc o)) = mine ++ named tc o := by
  have h := C120_header (g3Definitions tc o) fun d hd => (definitions_lines tc o d hd).1
  unfold macrosAfter at *
  rw [List.nil_append] at h
  rw [h]
  rfl

/-- C120, exactly, for any program: every feature is that of the options, or the program has asked for it (or for its absence) by a macro of its own. -/
theorem C120_exact (tc : Toolchain) (o : BuildOptions) (mine : List (Str × Str)) (old : Option Str) (hi : o.ios = false) :
    ∃ t, (configureHeader tc o old).1 = some t ∧ featuresOf tc (macrosAfter mine t) =
      { dynamicLevels := isDefined mine "G3_DYNAMIC_LOGGING".toList || o.dynamicLevels
        dynamicSize := isDefined mine "G3_DYNAMIC_MAX_MESSAGE_SIZE".toList || o.dynamicSize
        fullFilename := isDefined mine "G3_LOG_FULL_FILENAME".toList || o.fullFilename
        fatalSignals := !isDefined mine "DISABLE_FATAL_SIGNALHANDLING".toList && o.fatalSignals
        vectored := !isDefined mine "DISABLE_VECTORED_EXCEPTIONHANDLING".toList && (o.vectored || !tc.windows)
        debugBreak := isDefined mine "DEBUG_BREAK_AT_FATAL_SIGNAL".toList || (o.debugBreak && tc.windows)
        function := match tc with
          | .msvc => if isDefined mine "WINDOWS_FUNCSIG".toList || o.funcsig then .funcsig else .function
          | .gnu => if isDefined mine "PRETTY_FUNCTION".toList || o.pretty then .pretty else .function
          | .mingw => if isDefined mine "PRETTY_FUNCTION".toList || o.pretty then .pretty else .function
          | .other => .function
        debugLevel := match mine.find? fun p => p.1 == "G3LOG_DEBUG".toList with
          | some p => some p.2
          | none => some (if o.dbug then "DBUG".toList else "DEBUG".toList) } := by
  refine ⟨_, (C120_written tc o old hi).1, ?_⟩
  rw [named_off]
  obtain ⟨h1, h2, h3, h4, h5, h6, h7, h8, h9, h10, h11, h12⟩ := named_defined tc o
  have hf : ((mine ++ named tc o).find? fun p => p.1 == "G3LOG_DEBUG".toList).map (·.2) =
      (match mine.find? fun p => p.1 == "G3LOG_DEBUG".toList with
        | some p => some p.2
        | none => some (if o.dbug then "DBUG".toList else "DEBUG".toList)) := by
    rw [List.find?_append, h12]
    cases mine.find? fun p => p.1 == "G3LOG_DEBUG".toList <;> rfl
  have hfn : functionText tc (mine ++ named tc o) = (match tc with
          | .msvc => if isDefined mine "WINDOWS_FUNCSIG".toList || o.funcsig then .funcsig else .function
          | .gnu => if isDefined mine "PRETTY_FUNCTION".toList || o.pretty then .pretty else .function
          | .mingw => if isDefined mine "PRETTY_FUNCTION".toList || o.pretty then .pretty else .function
          | .other => .function) := by
    unfold functionText
    rw [isDefined_append, isDefined_append, h3, h4]
    generalize isDefined mine "WINDOWS_FUNCSIG".toList = u
    generalize isDefined mine "PRETTY_FUNCTION".toList = v
    cases tc <;> cases u <;> cases v <;> rfl
  unfold featuresOf
  rw [hf, hfn]
  simp only [isDefined_append, h1, h5, h6, h7, h8, h9]
  congr 1
  · cases isDefined mine "DISABLE_FATAL_SIGNALHANDLING".toList <;> cases o.fatalSignals <;> rfl
  · cases isDefined mine "DISABLE_VECTORED_EXCEPTIONHANDLING".toList <;> cases o.vectored <;> cases tc.windows <;> rfl
  · cases isDefined mine "DEBUG_BREAK_AT_FATAL_SIGNAL".toList <;> cases o.debugBreak <;> cases tc.windows <;> rfl

theorem off_defined {mine : List (Str × Str)} (h : keepsOff mine) {x : Str} (hx : x ∈ ownNames) : isDefined mine x = false := by
  unfold isDefined
  rw [List.any_eq_false]
  intro p hp e
  exact h p hp (by rw [beq_iff_eq.mp e]; exact hx)

/-- C120: a program that includes the headers and defines none of the library's macros itself is compiled with exactly the features chosen for the library. -/
theorem C120_features (tc : Toolchain) (o : BuildOptions) (mine : List (Str × Str)) (old : Option Str) (hi : o.ios = false) (hm : keepsOff mine) :
    ∃ t, (configureHeader tc o old).1 = some t ∧ featuresOf tc (macrosAfter mine t) = chosenBuild tc o := by
  obtain ⟨t, h1, h2⟩ := C120_exact tc o mine old hi
  refine ⟨t, h1, ?_⟩
  have d : ∀ x, x ∈ ownNames → isDefined mine x = false := fun x hx => off_defined hm hx
  have hf : (mine.find? fun p => p.1 == "G3LOG_DEBUG".toList) = none := by
    rw [List.find?_eq_none]
    intro p hp e
    exact hm p hp (by rw [beq_iff_eq.mp e]; decide +kernel)
  rw [h2, hf, d _ (show "G3_DYNAMIC_LOGGING".toList ∈ ownNames by decide +kernel), d _ (show "G3_DYNAMIC_MAX_MESSAGE_SIZE".toList ∈ ownNames by decide +kernel),
    d _ (show "G3_LOG_FULL_FILENAME".toList ∈ ownNames by decide +kernel), d _ (show "DISABLE_FATAL_SIGNALHANDLING".toList ∈ ownNames by decide +kernel),
    d _ (show "DISABLE_VECTORED_EXCEPTIONHANDLING".toList ∈ ownNames by decide +kernel), d _ (show "DEBUG_BREAK_AT_FATAL_SIGNAL".toList ∈ ownNames by decide +kernel),
    d _ (show "WINDOWS_FUNCSIG".toList ∈ ownNames by decide +kernel), d _ (show "PRETTY_FUNCTION".toList ∈ ownNames by decide +kernel)]
  unfold chosenBuild
  cases tc <;> rfl

/-- C120: the headers refuse a program that has a macro of the name of the debug level, and no other (that keeps off the library's macros). -/
theorem C120_clash (tc : Toolchain) (o : BuildOptions) (mine : List (Str × Str)) (hm : keepsOff mine) :
    levelClash (macrosAfter mine (generatedContent (g3Definitions tc o))) = isDefined mine (if o.dbug then "DBUG".toList else "DEBUG".toList) := by
  rw [named_off]
  obtain ⟨h1, h2, h3, h4, h5, h6, h7, h8, h9, h10, h11, h12⟩ := named_defined tc o
  unfold levelClash
  rw [isDefined_append, isDefined_append, isDefined_append, h2, h10, h11,
    off_defined hm (show "CHANGE_G3LOG_DEBUG_TO_DBUG".toList ∈ ownNames by decide +kernel)]
  cases o.dbug <;> simp

/-- C120: a run of CMake after another one writes the header, so that everything is compiled again, if and only if the choice has changed in something that reaches
the code on this platform. -/
theorem C120_again (tc : Toolchain) (a b : BuildOptions) (old : Option Str) (ha : a.ios = false) (hb : b.ios = false) :
    (configureHeader tc b (configureHeader tc a old).1).2 = true ↔ ¬ sameChoice tc a b := by
  rw [(C120_written tc b _ hb).2, (C120_written tc a old ha).1]
  apply not_congr
  constructor
  · intro h
    have he : named tc a = named tc b := by
      have := Option.some.inj h
      have h1 := named_off tc a []
      have h2 := named_off tc b []
      rw [this, h2] at h1
      simpa using h1.symm
    obtain ⟨a1, a2, a3, a4, a5, a6, a7, a8, a9, _⟩ := named_defined tc a
    obtain ⟨b1, b2, b3, b4, b5, b6, b7, b8, b9, _⟩ := named_defined tc b
    rw [he] at a1 a2 a3 a4 a5 a6 a7 a8 a9
    refine ⟨a1.symm.trans b1, a2.symm.trans b2, a3.symm.trans b3, a4.symm.trans b4, a5.symm.trans b5, a6.symm.trans b6, ?_, ?_⟩
    · have := a7.symm.trans b7
      revert this
      cases a.fatalSignals <;> cases b.fatalSignals <;> simp
    · intro htc
      have hw : tc.windows = true := by rcases htc with rfl | rfl <;> rfl
      have e8 := a8.symm.trans b8
      have e9 := a9.symm.trans b9
      rw [hw] at e8 e9
      revert e8 e9
      cases a.vectored <;> cases b.vectored <;> cases a.debugBreak <;> cases b.debugBreak <;> simp
  · rintro ⟨e1, e2, e3, e4, e5, e6, e7, e8⟩
    have : g3Definitions tc a = g3Definitions tc b := by
      unfold g3Definitions
      rw [e1, e2, e3, e4, e5, e6, e7]
      cases tc with
      | gnu => rfl
      | other => rfl
      | mingw => rw [(e8 (Or.inr rfl)).1, (e8 (Or.inr rfl)).2]
      | msvc => rw [(e8 (Or.inl rfl)).1, (e8 (Or.inl rfl)).2]
    rw [this]

/-- A run for iOS leaves the header alone. -/
theorem C120_ios (tc : Toolchain) (o : BuildOptions) (old : Option Str) (hi : o.ios = true) : configureHeader tc o old = (old, false) := by
  unfold configureHeader
  rw [hi]
  rfl

/-- A program with macros of its own that keeps off those of the library; the default options give it the default features. -/
example : keepsOff [("DEBUG".toList, "1".toList), ("NDEBUG".toList, [])] ∧
    chosenBuild .gnu BuildOptions.default = ⟨false, false, false, true, true, false, .function, some "DEBUG".toList⟩ ∧
    chosenBuild .mingw { BuildOptions.default with pretty := true, funcsig := true, vectored := false, dbug := true } =
      ⟨false, false, false, true, false, false, .pretty, some "DBUG".toList⟩ :=
  ⟨by unfold keepsOff; decide +kernel, by decide +kernel, by decide +kernel⟩

/-- A program that defines PRETTY_FUNCTION for purposes of its own changes its log entries. -/
example : featuresOf .gnu (macrosAfter [("PRETTY_FUNCTION".toList, [])] (generatedContent (g3Definitions .gnu BuildOptions.default))) =
    { chosenBuild .gnu BuildOptions.default with function := .pretty } := by decide +kernel

/-- The header for a choice of options. -/
example : macrosAfter [] (generatedContent (g3Definitions .msvc { BuildOptions.default with dynamicLevels := true, dbug := true, fatalSignals := false, debugBreak := true })) =
    [("G3_DYNAMIC_LOGGING".toList, []), ("CHANGE_G3LOG_DEBUG_TO_DBUG".toList, []), ("G3LOG_DEBUG".toList, "DBUG".toList),
     ("DISABLE_FATAL_SIGNALHANDLING".toList, []), ("DEBUG_BREAK_AT_FATAL_SIGNAL".toList, [])] := by decide +kernel

/-- Definitions within comments do not count. -/
example : headerLines false (textLines "/* a\n#define A 1\n*/\n// #define B\n#define C 2 3\n #define D\n#define E".toList) =
    [("C".toList, "2 3".toList), ("E".toList, [])] := by decide +kernel

end G3.Props
