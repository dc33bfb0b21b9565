import Verif.Model.FileName
import Verif.Proofs.CrashText
/-
Properties of log file names: C36, C37, C56.
-/
namespace G3.Props
open G3 G3.Spec

/-! ### C36 -/

/-- Characters that are silently dropped from a prefix: white space and `/ \ . :`. -/
def droppedInPrefix (c : Char) : Bool :=
  c = ' ' || c = '\t' || c = '\n' || c = Char.ofNat 11 || c = Char.ofNat 12 || c = '\r' ||
  c = '/' || c = '\\' || c = '.' || c = ':'

/-- Characters a prefix may not contain. -/
def illegalInPrefix (c : Char) : Prop := c ∈ "/,|<>:#$%{}[]'\"^!?+* ".toList

theorem eraseIf_eq_filter (p : Char → Bool) (s : Str) : eraseIf p s = s.filter (fun c => !p c) := by
  induction s with
  | nil => rfl
  | cons c s ih =>
    unfold eraseIf
    cases h : p c <;> simp [h, ih]

theorem isValidFilename_iff (s : Str) : isValidFilename s = true ↔ s ≠ [] ∧ ∀ c ∈ s, ¬ illegalInPrefix c := by
  have e : illegalCharacters = "/,|<>:#$%{}[]'\"^!?+* ".toList := rfl
  unfold isValidFilename illegalInPrefix
  rw [e]
  generalize "/,|<>:#$%{}[]'\"^!?+* ".toList = I
  cases h : findFirstOf I s with
  | some i =>
    obtain ⟨a, c, b, e, _, hc, _⟩ := findFirstOf_some h
    simp only [Bool.false_eq_true, false_iff, not_and]
    intro _ hall
    exact hall c (by rw [e]; simp) hc
  | none =>
    have := findFirstOf_none.mp h
    by_cases hs : s = []
    · simp [hs]
    · simp only [hs, if_false, ne_eq, not_false_eq_true, true_and, true_iff]
      exact this

/-- C36: for every prefix string, the sink is constructed exactly when the prefix without white space and
`/ \ . :` is non-empty and free of illegal characters, and then this is the prefix used; otherwise the
process aborts. -/
theorem C36_prefix (p q : Str) :
    acceptPrefix p = some q ↔
      q = p.filter (fun c => !droppedInPrefix c) ∧ q ≠ [] ∧ ∀ c ∈ q, ¬ illegalInPrefix c := by
  have hf : eraseIf (· = ':') (eraseIf (· = '.') (eraseIf (· = '\\') (eraseIf (· = '/') (eraseIf isspace p)))) =
      p.filter (fun c => !droppedInPrefix c) := by
    simp only [eraseIf_eq_filter, List.filter_filter]
    congr 1
    funext c
    simp only [isspace, droppedInPrefix, Bool.not_or]
    ac_rfl
  unfold acceptPrefix prefixSanityFix
  simp only [hf]
  generalize p.filter (fun c => !droppedInPrefix c) = f
  cases hv : isValidFilename f with
  | true =>
    simp only [Bool.true_eq_false, if_false, hv, Option.some.injEq]
    have := (isValidFilename_iff f).mp hv
    constructor
    · rintro rfl; exact ⟨rfl, this⟩
    · rintro ⟨rfl, _⟩; rfl
  | false =>
    simp only [if_true]
    have he : isValidFilename ([] : Str) = false := rfl
    simp only [he, if_true, reduceCtorEq, false_iff, not_and]
    rintro rfl h1
    intro h2
    have := (isValidFilename_iff q).mpr ⟨h1, h2⟩
    rw [hv] at this; cases this

/-- C36: cleaning alone gives the prefix without the dropped characters, or nothing at all when that is not usable. -/
theorem C36_cleaning (p : Str) :
    (∀ q, acceptPrefix p = some q → prefixSanityFix p = q) ∧ (acceptPrefix p = none → prefixSanityFix p = []) := by
  unfold acceptPrefix
  constructor
  · intro q h
    simp only at h
    split at h
    · cases h
    · cases h; rfl
  · intro h
    simp only at h
    split at h
    · next hv =>
      unfold prefixSanityFix at hv ⊢
      simp only at hv ⊢
      split
      · rfl
      · next h2 => rw [if_neg h2] at hv; exact absurd hv h2
    · cases h

/-- C36: the accepted prefix contains no dot, slash, backslash, colon or white space. -/
theorem C36_clean (p q : Str) (h : acceptPrefix p = some q) : ∀ c ∈ q, droppedInPrefix c = false := by
  obtain ⟨rfl, _⟩ := (C36_prefix p q).mp h
  intro c hc
  have := (List.mem_filter.mp hc).2
  simpa using this

/-- C36: no prefix is altered by being fixed twice. -/
theorem C36_idempotent (p q : Str) (h : acceptPrefix p = some q) : acceptPrefix q = some q := by
  have hc := C36_clean p q h
  rw [C36_prefix] at h ⊢
  refine ⟨?_, h.2⟩
  rw [List.filter_eq_self.mpr]
  intro c hm
  simp [hc c hm]

example : acceptPrefix " my.app/log 1".toList = some "myapplog1".toList ∧ acceptPrefix "a+b".toList = none ∧
    acceptPrefix "./: ".toList = none := by decide

/-! ### C37 -/

/-- The directory as the user means it: backslashes are slashes. -/
def unifySeparators (d : Str) : Str := d.map (fun c => if c = '\\' then '/' else c)

theorem stripEnd_spec (s : Str) : ∃ tail, s = stripEnd s ++ tail ∧ (∀ c ∈ tail, c = '/' ∨ c = ' ') ∧
    ∀ c, (stripEnd s).getLast? = some c → ¬ (c = '/' ∨ c = ' ') := by
  induction s using List.reverseRecOn with
  | nil =>
    refine ⟨[], ?_, by simp, ?_⟩
    · rw [stripEnd]; simp
    · rw [stripEnd]; simp
  | append_singleton s e ih =>
    rw [stripEnd]
    have h : (s ++ [e]).getLast? = some e := by simp
    split
    · rename_i h'; rw [h] at h'; cases h'
    · rename_i e' h'
      rw [h] at h'
      simp only [Option.some.injEq] at h'
      subst h'
      by_cases he : e = '/' ∨ e = ' '
      · rw [if_pos he]
        simp only [List.dropLast_concat]
        obtain ⟨t, h1, h2, h3⟩ := ih
        refine ⟨t ++ [e], ?_, ?_, h3⟩
        · rw [← List.append_assoc, ← h1]
        · intro c hc
          rcases List.mem_append.mp hc with hc | hc
          · exact h2 c hc
          · simp only [List.mem_singleton] at hc; rw [hc]; exact he
      · rw [if_neg he]
        refine ⟨[], by simp, by simp, ?_⟩
        intro c hc
        rw [h] at hc
        simp only [Option.some.injEq] at hc
        rw [← hc]; exact he

/-- C37 (partial: directories that are not just slashes and blanks): the file path is the directory with
unified separators and without its trailing slashes and blanks, one slash, and the file name. -/
theorem C37_path_partial (dir name d tail : Str) (h : unifySeparators dir = d ++ tail)
    (ht : ∀ c ∈ tail, c = '/' ∨ c = ' ') (hd : d ≠ []) (hl : ∀ c, d.getLast? = some c → ¬ (c = '/' ∨ c = ' ')) :
    pathSanityFix dir name = d ++ "/".toList ++ name := by
  have key : stripEnd (unifySeparators dir) = d := by
    rw [h]
    clear h
    induction tail using List.reverseRecOn with
    | nil =>
      rw [List.append_nil, stripEnd]
      split
      · rfl
      · rename_i e he; rw [if_neg (hl e he)]
    | append_singleton t e ih =>
      rw [stripEnd]
      have hg : (d ++ (t ++ [e])).getLast? = some e := by rw [← List.append_assoc]; simp
      split
      · rename_i h'; rw [hg] at h'; cases h'
      · rename_i e' h'
        rw [hg] at h'
        simp only [Option.some.injEq] at h'
        subst h'
        rw [if_pos (ht e (by simp)), ← List.append_assoc, List.dropLast_concat]
        exact ih (fun c hc => ht c (by simp [hc]))
  unfold pathSanityFix
  simp only
  have : (dir.map fun c => if c = '\\' then '/' else c) = unifySeparators dir := rfl
  rw [this, key]
  simp [hd]

/-- C37: every directory string has such a decomposition or consists of slashes and blanks only. -/
theorem C37_cases (dir : Str) : (∀ c ∈ unifySeparators dir, c = '/' ∨ c = ' ') ∨
    ∃ d tail, unifySeparators dir = d ++ tail ∧ (∀ c ∈ tail, c = '/' ∨ c = ' ') ∧ d ≠ [] ∧
      ∀ c, d.getLast? = some c → ¬ (c = '/' ∨ c = ' ') := by
  obtain ⟨t, h1, h2, h3⟩ := stripEnd_spec (unifySeparators dir)
  by_cases hd : stripEnd (unifySeparators dir) = []
  · left
    rw [hd] at h1
    simp only [List.nil_append] at h1
    rw [h1]; exact h2
  · right; exact ⟨_, t, h1, h2, hd, h3⟩

/-- C37: the remaining directories (only slashes and blanks) yield the bare file name. -/
theorem C37_blank (dir name : Str) (h : ∀ c ∈ unifySeparators dir, c = '/' ∨ c = ' ') :
    pathSanityFix dir name = name := by
  obtain ⟨t, h1, h2, h3⟩ := stripEnd_spec (unifySeparators dir)
  have hd : stripEnd (unifySeparators dir) = [] := by
    by_contra hne
    obtain ⟨c, hc⟩ : ∃ c, (stripEnd (unifySeparators dir)).getLast? = some c := by
      cases hg : (stripEnd (unifySeparators dir)).getLast? with
      | none => exact absurd (List.getLast?_eq_none_iff.mp hg) hne
      | some c => exact ⟨c, rfl⟩
    apply h3 c hc
    apply h
    rw [h1]
    exact List.mem_append_left _ (List.mem_of_getLast? hc)
  unfold pathSanityFix
  simp only
  have : (dir.map fun c => if c = '\\' then '/' else c) = unifySeparators dir := rfl
  rw [this, hd]
  simp

/-- C37 is false for the root directory: the file is placed in the working directory instead. -/
theorem C37_negation (name : Str) : pathSanityFix "/".toList name = name ∧ pathSanityFix "/".toList name ≠ "/".toList ++ name := by
  have : pathSanityFix "/".toList name = name := C37_blank _ _ (by decide)
  refine ⟨this, ?_⟩
  rw [this]
  intro e
  have := congrArg List.length e
  simp at this

/-- C37: a path is not changed by a trailing slash or blank. -/
theorem C37_trailing (dir name tail : Str) (ht : ∀ c ∈ tail, c = '/' ∨ c = ' ') :
    pathSanityFix (dir ++ tail) name = pathSanityFix dir name := by
  have hu : unifySeparators (dir ++ tail) = unifySeparators dir ++ tail := by
    unfold unifySeparators
    rw [List.map_append]
    congr 1
    conv_rhs => rw [← List.map_id tail]
    apply List.map_congr_left
    intro c hc
    rcases ht c hc with rfl | rfl <;> decide
  rcases C37_cases dir with h | ⟨d, t, h1, h2, h3, h4⟩
  · rw [C37_blank dir name h, C37_blank]
    intro c hc
    rw [hu, List.mem_append] at hc
    rcases hc with hc | hc
    · exact h c hc
    · exact ht c hc
  · rw [C37_path_partial dir name d t h1 h2 h3 h4]
    apply C37_path_partial (dir ++ tail) name d (t ++ tail) _ _ h3 h4
    · rw [hu, h1, List.append_assoc]
    · intro c hc
      rcases List.mem_append.mp hc with hc | hc
      · exact h2 c hc
      · exact ht c hc

example : pathSanityFix "C:\\logs\\app// ".toList "x.log".toList = "C:/logs/app/x.log".toList :=
  C37_path_partial _ _ "C:/logs/app".toList "// ".toList (by decide) (by decide) (by decide) (by decide)

/-! ### C56 -/

/-- C56: the log file name is `prefix.id.time.log`, or `prefix.time.log` without an id. -/
theorem C56_name (p i t : Str) :
    (i ≠ [] → createLogFileName p i t = p ++ '.' :: i ++ '.' :: t ++ ".log".toList) ∧
    createLogFileName p [] t = p ++ '.' :: t ++ ".log".toList := by
  constructor
  · intro h; simp [createLogFileName, h]
  · simp [createLogFileName]

/-- C56: for dot-free prefixes (C36 guarantees this) and time texts of equal length (C58), different
prefixes, ids or times give different names. -/
theorem C56_injective (p p' i i' t t' : Str) (hp : '.' ∉ p) (hp' : '.' ∉ p') (hl : t.length = t'.length)
    (h : createLogFileName p i t = createLogFileName p' i' t') : p = p' ∧ i = i' ∧ t = t' := by
  have e : ∀ q j s : Str, createLogFileName q j s =
      q ++ '.' :: ((if j ≠ [] then j ++ ".".toList else []) ++ s ++ ".log".toList) := by
    intro q j s; simp [createLogFileName]
  rw [e, e] at h
  have c1 := cut_append '.' p ((if i ≠ [] then i ++ ".".toList else []) ++ t ++ ".log".toList) hp
  have c2 := cut_append '.' p' ((if i' ≠ [] then i' ++ ".".toList else []) ++ t' ++ ".log".toList) hp'
  rw [h, c2] at c1
  simp only [Prod.mk.injEq] at c1
  obtain ⟨h1, h2⟩ := c1
  have h3 := (List.append_inj' h2 rfl).1
  obtain ⟨h4, h5⟩ := List.append_inj' h3 hl.symm
  refine ⟨h1.symm, ?_, h5.symm⟩
  by_cases hi : i = [] <;> by_cases hi' : i' = []
  · rw [hi, hi']
  · simp [hi, hi'] at h4
  · simp [hi, hi'] at h4
  · simp only [ne_eq, hi, hi', not_false_eq_true, if_true] at h4
    exact (List.append_inj' h4 rfl).1.symm

/-- C56: the file name of an accepted prefix and a separator-free id contains no directory separator, so
the file lies directly in the chosen directory. -/
theorem C56_flat (lp p i t : Str) (h : acceptPrefix lp = some p) (hi : '/' ∉ i) (ht : '/' ∉ t) :
    '/' ∉ createLogFileName p i t := by
  have hp : '/' ∉ p := fun hm => by have := C36_clean lp p h '/' hm; revert this; decide
  unfold createLogFileName
  by_cases he : i = []
  · simp [he, hp, ht]
  · simp [he, hp, hi, ht]

example : createLogFileName "app".toList "g3log".toList "20261116-010203".toList = "app.g3log.20261116-010203.log".toList := by
  decide

end G3.Props
