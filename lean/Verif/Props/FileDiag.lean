import Verif.Model.FileDiag
import Verif.Spec.FileDiag
import Verif.Props.FileSink
/-
C95: what the file sink tells on stderr.
-/
namespace G3.Props
open G3 G3.Spec

/-! ### Parts -/

theorem t_illegal (fb : Str) (c : Char) (n : Str) :
    DiagLine.text fb (.illegal c n) = "Illegal character [".toList ++ [c] ++ "] in logname prefix: [".toList ++ n ++ "]\n".toList := rfl
theorem t_empty (fb : Str) : DiagLine.text fb .empty = "Empty filename prefix is not allowed\n".toList := rfl
theorem t_forced (fb g : Str) : DiagLine.text fb (.forced g) = "g3log: forced abort due to illegal log prefix [".toList ++ g ++ "]\n".toList := rfl
theorem t_cannotOpen (fb p : Str) : DiagLine.text fb (.cannotOpen p) =
    ("FILE ERROR:  could not open log file:[".toList ++ p ++ "]\n\t\t std::ios_base state = ".toList ++ fb).takeWhile (fun c => decide (c ≠ Char.ofNat 0)) ++
      "\n".toList := rfl
theorem t_trying (fb : Str) : DiagLine.text fb .trying = "Cannot write log file to location, attempting current directory\n".toList := rfl
theorem t_shutdown (fb t : Str) : DiagLine.text fb (.shutdown t) = "g3log g3FileSink shutdown at: ".toList ++ t ++ "\n".toList := rfl
theorem t_logAt (fb p : Str) : DiagLine.text fb (.logAt p) = "Log file at: [".toList ++ p ++ "]\n".toList := rfl

theorem valid_same (s : Str) : (isValidFilenameD s).1 = isValidFilename s := by
  unfold isValidFilenameD isValidFilename
  cases findFirstOf illegalCharacters s with
  | some i => rfl
  | none => simp only; split <;> rfl

theorem fix_same (s : Str) : (prefixSanityFixD s).1 = prefixSanityFix s := by
  unfold prefixSanityFixD prefixSanityFix
  simp only [valid_same]
  split <;> rfl

theorem create_same (fb : Str) (fs : FS) (p : Str) (o : Bool) : (createLogFileD fb fs p o).1 = createLogFile fs p o := by
  cases o <;> rfl

theorem cStr_eq (s : Str) : cStr s = s.takeWhile (fun c => decide (c ≠ Char.ofNat 0)) := by
  induction s with
  | nil => rfl
  | cons c s ih =>
    by_cases h : c = Char.ofNat 0
    · rw [cStr, if_pos h, h]; simp
    · rw [cStr, if_neg h, List.takeWhile_cons, ih]; simp [h]

theorem lit1 (r : Str) : "] in logname prefix: ".toList ++ ("[".toList ++ r) = "] in logname prefix: [".toList ++ r := by
  rw [← List.append_assoc]; exact congrArg (· ++ r) (by decide +kernel)
theorem lit2 : "]".toList ++ "\n".toList = "]\n".toList := by decide +kernel
theorem lit3 : "Empty filename prefix is not allowed".toList ++ "\n".toList = "Empty filename prefix is not allowed\n".toList := by decide +kernel
theorem lit4 (r : Str) : "]".toList ++ ("\n\t\t std::ios_base state = ".toList ++ r) = "]\n\t\t std::ios_base state = ".toList ++ r := by
  rw [← List.append_assoc]; exact congrArg (· ++ r) (by decide +kernel)
theorem lit5 (r : Str) : "Cannot write log file to location, attempting current directory".toList ++ ("\n".toList ++ r) =
    "Cannot write log file to location, attempting current directory\n".toList ++ r := by
  rw [← List.append_assoc]; exact congrArg (· ++ r) (by decide +kernel)
theorem lit6 : "Cannot write log file to location, attempting current directory".toList ++ "\n".toList =
    "Cannot write log file to location, attempting current directory\n".toList := by decide +kernel

theorem create_text (fb : Str) (fs : FS) (p : Str) (o : Bool) :
    (createLogFileD fb fs p o).2 = if o then [] else DiagLine.text fb (.cannotOpen p) := by
  cases o with
  | true => rfl
  | false =>
    simp only [createLogFileD, Bool.false_eq_true, if_false, t_illegal, t_empty, t_forced, t_cannotOpen, t_trying, t_shutdown, t_logAt, cStr_eq, List.append_assoc, lit4]

/-- The complaint about a name. -/
theorem valid_text (fb s : Str) :
    (isValidFilenameD s).2 = diagText fb (match s.find? forbidden with
      | some c => [.illegal c s]
      | none => if s = [] then [.empty] else []) := by
  unfold isValidFilenameD
  have e : illegalCharacters = "/,|<>:#$%{}[]'\"^!?+* ".toList := rfl
  cases h : findFirstOf illegalCharacters s with
  | some i =>
    obtain ⟨a, c, b, rfl, rfl, hc, ha⟩ := findFirstOf_some h
    have hf : (a ++ c :: b).find? forbidden = some c := by
      rw [List.find?_append]
      have h1 : a.find? forbidden = none := by
        rw [List.find?_eq_none]
        intro x hx
        have := ha x hx
        rw [e] at this
        unfold forbidden
        simpa using this
      have h2 : forbidden c = true := by rw [e] at hc; unfold forbidden; simpa using hc
      rw [h1]
      simp [h2]
    rw [hf]
    simp only [diagText, List.map_cons, List.map_nil, List.flatten_cons, List.flatten_nil, List.append_nil, t_illegal, t_empty, t_forced, t_cannotOpen, t_trying, t_shutdown, t_logAt]
    simp only [List.getElem?_append_right (Nat.le_refl _), Nat.sub_self, List.getElem?_cons_zero, Option.toList_some, List.append_assoc,
      lit1, lit2]
  | none =>
    have hf : s.find? forbidden = none := by
      rw [List.find?_eq_none]
      intro x hx
      have := findFirstOf_none.mp h x hx
      rw [e] at this
      unfold forbidden
      simpa using this
    rw [hf]
    simp only
    by_cases hs : s = []
    · rw [if_pos hs, if_pos hs]; simp only [diagText, List.map_cons, List.map_nil, List.flatten_cons, List.flatten_nil, List.append_nil, t_illegal, t_empty, t_forced, t_cannotOpen, t_trying, t_shutdown, t_logAt, lit3]
    · rw [if_neg hs, if_neg hs]; rfl

theorem erased (p : Str) :
    eraseIf (· = ':') (eraseIf (· = '.') (eraseIf (· = '\\') (eraseIf (· = '/') (eraseIf isspace p)))) = cleanedPrefix p := by
  simp only [eraseIf_eq_filter, List.filter_filter, cleanedPrefix]
  congr 1
  funext c
  simp only [isspace, List.mem_cons, List.not_mem_nil, or_false, Bool.decide_or, Bool.not_or]
  ac_rfl

theorem valid_clean (s : Str) : isValidFilename s = (decide (s ≠ []) && (s.find? forbidden).isNone) := by
  rw [Bool.eq_iff_iff, isValidFilename_iff]
  simp only [Bool.and_eq_true, decide_eq_true_eq, Option.isNone_iff_eq_none, List.find?_eq_none, forbidden, illegalInPrefix]

theorem stripEnd_eq (s : Str) : stripEnd s = (s.reverse.dropWhile fun c => decide (c = '/' ∨ c = ' ')).reverse := by
  obtain ⟨t, h1, h2, h3⟩ := stripEnd_spec s
  generalize stripEnd s = u at h1 h3 ⊢
  rw [h1, List.reverse_append, List.dropWhile_append_of_pos (by intro c hc; simpa using h2 c (by simpa using hc))]
  rw [eq_comm, List.reverse_eq_iff]
  cases hu : u.reverse with
  | nil => rfl
  | cons c r =>
    have : u.getLast? = some c := by rw [← List.head?_reverse, hu]; rfl
    have := h3 c this
    rw [List.dropWhile_cons]; simp [this]

theorem path_eq (dir file : Str) : pathSanityFix dir file = placeIn dir file := by
  unfold pathSanityFix placeIn
  simp only [stripEnd_eq]
  generalize (List.dropWhile _ _).reverse = d
  by_cases h : d = []
  · simp [h]
  · simp [h]

theorem name_eq (given id t : Str) : createLogFileName (cleanedPrefix given) id t = plainName given id t := by
  rw [plainName, ← targetName_eq]; rfl

theorem diag_append (fb : Str) (a b : List DiagLine) : diagText fb (a ++ b) = diagText fb a ++ diagText fb b := by
  simp [diagText]

theorem diag_cons (fb : Str) (a : DiagLine) (b : List DiagLine) : diagText fb (a :: b) = DiagLine.text fb a ++ diagText fb b := by
  simp [diagText]

/-! ### The same functions -/

/-- C95: apart from the text on stderr these are the functions that C36 to C42 speak about. -/
theorem C95_same (fb : Str) (E : Env) :
    (∀ fs lp d i N nt o1 o2, (FileSink.newD fb fs lp d i N nt o1 o2).1 = FileSink.new fs lp d i N nt o1 o2) ∧
    (∀ s fs ops, (sinkRunD fb E s fs ops).1 = sinkRun E s fs ops) ∧
    (∀ (s : FileSink) fs t, (s.destroyD fs t).1 = s.destroy fs t) := by
  refine ⟨?_, ?_, fun _ _ _ => rfl⟩
  · intro fs lp d i N nt o1 o2
    unfold FileSink.newD FileSink.new acceptPrefix
    simp only [fix_same, valid_same]
    cases isValidFilename (prefixSanityFix lp) with
    | false => rfl
    | true => cases o1 <;> cases o2 <;> rfl
  · intro s fs ops
    induction ops generalizing s fs with
    | nil => rfl
    | cons op ops ih =>
      have h1 : (sinkStepD fb E s fs op).1 = sinkStep E s fs op := by cases op <;> rfl
      rw [sinkRunD, sinkRun, ← h1]
      obtain ⟨r, t⟩ := sinkStepD fb E s fs op
      cases r with
      | error e => rfl
      | ok x =>
        obtain ⟨s', fs', r⟩ := x
        simp only
        rw [← ih s' fs']
        obtain ⟨r', t'⟩ := sinkRunD fb E s' fs' ops
        cases r' <;> rfl

/-! ### Construction -/

/-- C95: exactly what the construction of a file sink writes to stderr, for every prefix, directory and identifier, and whatever can be
opened. -/
theorem C95_construction (fb : Str) (fs : FS) (given dir id nt : Str) (N : Nat) (o1 o2 : Bool) :
    (FileSink.newD fb fs given dir id N nt o1 o2).2 = diagText fb (constructLines given dir id nt o1 o2) := by
  have hp : (prefixSanityFixD given).1 = if isValidFilename (cleanedPrefix given) = false then [] else cleanedPrefix given := by
    rw [fix_same]; unfold prefixSanityFix; simp only [erased]
  have ht : (prefixSanityFixD given).2 = (isValidFilenameD (cleanedPrefix given)).2 := by
    unfold prefixSanityFixD; simp only [erased]; split <;> rfl
  unfold FileSink.newD constructLines
  simp only [ht]
  have hv := valid_clean (cleanedPrefix given)
  rw [valid_text fb (cleanedPrefix given)]
  generalize hg : (cleanedPrefix given).find? forbidden = g at hv ⊢
  have he : isValidFilenameD ([] : Str) = (false, DiagLine.text fb .empty) := by
    rw [t_empty, ← lit3]; rfl
  cases g with
  | some c =>
    have : isValidFilename (cleanedPrefix given) = false := by rw [hv]; simp
    rw [hp, if_pos this, he]
    simp only [if_true, diag_cons, t_illegal, t_empty, t_forced, t_cannotOpen, t_trying, t_shutdown, t_logAt, List.append_assoc]
    simp only [diagText, List.map_nil, List.flatten_nil, List.append_nil, List.nil_append, List.append_assoc, lit2]
  | none =>
    by_cases hc : cleanedPrefix given = []
    · have : isValidFilename (cleanedPrefix given) = false := by rw [hc]; rfl
      rw [hp, if_pos this, he]
      simp only [if_true, hc, diag_cons, t_illegal, t_empty, t_forced, t_cannotOpen, t_trying, t_shutdown, t_logAt, List.append_assoc]
      simp only [diagText, List.map_nil, List.flatten_nil, List.append_nil, List.nil_append, List.append_assoc, lit2]
    · have hV : isValidFilename (cleanedPrefix given) = true := by rw [hv]; simp [hc]
      have h2 : (isValidFilenameD (cleanedPrefix given)).1 = true := by rw [valid_same]; exact hV
      have h3 : (isValidFilenameD (cleanedPrefix given)).2 = [] := by rw [valid_text fb, hg]; simp [hc, diagText]
      rw [hp]
      simp only [hV, Bool.true_eq_false, if_false, h2, h3, hc]
      cases o1 with
      | true => rfl
      | false =>
        cases o2 with
        | true =>
          simp only [createLogFileD, createLogFile, Bool.false_eq_true, if_false, if_true, diag_cons, t_illegal, t_empty, t_forced, t_cannotOpen, t_trying, t_shutdown, t_logAt, cStr_eq, path_eq, name_eq]
          simp only [diagText, List.map_nil, List.flatten_nil, List.append_nil, List.nil_append, List.append_assoc, lit4, lit5, lit6]
        | false =>
          simp only [createLogFileD, createLogFile, Bool.false_eq_true, if_false, diag_cons, t_illegal, t_empty, t_forced, t_cannotOpen, t_trying, t_shutdown, t_logAt, cStr_eq, path_eq, name_eq]
          simp only [diagText, List.map_nil, List.flatten_nil, List.append_nil, List.nil_append, List.append_assoc, lit4, lit5, lit6]

theorem line_ne (fb : Str) (l : DiagLine) : DiagLine.text fb l ≠ [] := by
  cases l with
  | illegal c n => simp only [t_illegal, t_empty, t_forced, t_cannotOpen, t_trying, t_shutdown, t_logAt, List.append_assoc]; exact fun h => absurd (List.append_eq_nil_iff.mp h).1 (by decide +kernel)
  | empty => simp only [t_illegal, t_empty, t_forced, t_cannotOpen, t_trying, t_shutdown, t_logAt]; decide +kernel
  | forced g => simp only [t_illegal, t_empty, t_forced, t_cannotOpen, t_trying, t_shutdown, t_logAt, List.append_assoc]; exact fun h => absurd (List.append_eq_nil_iff.mp h).1 (by decide +kernel)
  | cannotOpen p => simp only [t_illegal, t_empty, t_forced, t_cannotOpen, t_trying, t_shutdown, t_logAt]; exact fun h => absurd (List.append_eq_nil_iff.mp h).2 (by decide +kernel)
  | trying => simp only [t_illegal, t_empty, t_forced, t_cannotOpen, t_trying, t_shutdown, t_logAt]; decide +kernel
  | shutdown t => simp only [t_illegal, t_empty, t_forced, t_cannotOpen, t_trying, t_shutdown, t_logAt, List.append_assoc]; exact fun h => absurd (List.append_eq_nil_iff.mp h).1 (by decide +kernel)
  | logAt p => simp only [t_illegal, t_empty, t_forced, t_cannotOpen, t_trying, t_shutdown, t_logAt, List.append_assoc]; exact fun h => absurd (List.append_eq_nil_iff.mp h).1 (by decide +kernel)

/-- C95: the construction is silent exactly when the file is where it was asked for. -/
theorem C95_silent (fb : Str) (fs : FS) (given dir id nt : Str) (N : Nat) (o1 o2 : Bool) :
    (FileSink.newD fb fs given dir id N nt o1 o2).2 = [] ↔
      o1 = true ∧ cleanedPrefix given ≠ [] ∧ ∀ c ∈ cleanedPrefix given, forbidden c = false := by
  rw [C95_construction]
  have hne : ∀ l ls, diagText fb (l :: ls) ≠ [] := by
    intro l ls h
    rw [diag_cons] at h
    have := (List.append_eq_nil_iff.mp h).1
    exact line_ne fb l this
  unfold constructLines
  cases hf : (cleanedPrefix given).find? forbidden with
  | some c =>
    simp only [hne, false_iff, not_and]
    intro _ _ h
    have h1 := List.find?_some hf
    rw [h c (List.mem_of_find?_eq_some hf)] at h1
    cases h1
  | none =>
    rw [List.find?_eq_none] at hf
    by_cases hc : cleanedPrefix given = []
    · simp [hc, hne]
    · have : ∀ c ∈ cleanedPrefix given, forbidden c = false := fun c h => by simpa using hf c h
      simp only [hc, if_false]
      cases o1 with
      | true => simp only [true_and, ne_eq, not_false_eq_true]; exact ⟨fun _ => ⟨hc, this⟩, fun _ => rfl⟩
      | false => cases o2 <;> simp [hne]

/-- C95 (partial: all lines but one): during construction stderr says nothing that is not so, except that it may call a prefix empty
that is not; that line is wrong exactly when another line names an illegal character of the prefix. -/
theorem C95_true_partial (given dir id nt : Str) (o1 o2 : Bool) (l : DiagLine) (h : l ∈ constructLines given dir id nt o1 o2) :
    TrueAtConstruction given dir id nt o1 o2 l ∨
      (l = .empty ∧ ∃ c, .illegal c (cleanedPrefix given) ∈ constructLines given dir id nt o1 o2) := by
  unfold constructLines at h ⊢
  cases hf : (cleanedPrefix given).find? forbidden with
  | some c =>
    have h1 := List.find?_some hf
    have h2 := List.mem_of_find?_eq_some hf
    rw [hf] at h
    simp only [List.mem_cons, List.not_mem_nil, or_false] at h
    rcases h with rfl | rfl | rfl
    · exact .inl ⟨rfl, h2, h1⟩
    · exact .inr ⟨rfl, c, by simp⟩
    · exact .inl ⟨rfl, .inr ⟨c, h2, h1⟩⟩
  | none =>
    rw [hf] at h
    simp only at h
    left
    by_cases hc : cleanedPrefix given = []
    · rw [if_pos hc] at h
      simp only [List.mem_cons, List.not_mem_nil, or_false] at h
      rcases h with rfl | rfl | rfl
      · exact hc
      · exact hc
      · exact ⟨rfl, .inl hc⟩
    · rw [if_neg hc] at h
      cases o1 with
      | true => cases h
      | false =>
        cases o2 with
        | true =>
          simp only [List.mem_cons, List.not_mem_nil, or_false] at h
          rcases h with rfl | rfl
          · exact .inl ⟨rfl, rfl⟩
          · exact (rfl : false = false)
        | false =>
          simp only [List.mem_cons, List.not_mem_nil, or_false] at h
          rcases h with rfl | rfl | rfl
          · exact .inl ⟨rfl, rfl⟩
          · exact (rfl : false = false)
          · exact .inr ⟨rfl, rfl⟩

/-- C95: the statement is false of the code: for the prefix `a+b` stderr also says that the prefix is empty. -/
theorem C95_negation (fb : Str) (fs : FS) (dir id nt : Str) (N : Nat) (o1 o2 : Bool) :
    ∃ l ∈ constructLines "a+b".toList dir id nt o1 o2, ¬ TrueAtConstruction "a+b".toList dir id nt o1 o2 l ∧
    (FileSink.newD fb fs "a+b".toList dir id N nt o1 o2).2 =
      ("Illegal character [+] in logname prefix: [a+b]\n" ++ "Empty filename prefix is not allowed\n" ++
       "g3log: forced abort due to illegal log prefix [a+b]\n").toList := by
  have e : constructLines "a+b".toList dir id nt o1 o2 = [.illegal '+' "a+b".toList, .empty, .forced "a+b".toList] := rfl
  refine ⟨.empty, by rw [e]; simp, ?_, ?_⟩
  · intro h
    have h' : cleanedPrefix "a+b".toList = [] := h
    exact absurd h' (by decide +kernel)
  · rw [C95_construction, e]
    simp only [diagText, List.map_cons, List.map_nil, t_illegal, t_empty, t_forced, t_cannotOpen, t_trying, t_shutdown, t_logAt]
    decide +kernel

/-! ### From construction to destruction -/

theorem change_target (E : Env) (s : FileSink) (fs : FS) (op : SinkOp) {s' : FileSink} {fs' : FS} {r : Str}
    (h : sinkStep E s fs op = .ok (s', fs', r)) :
    s'.prefixBackup = s.prefixBackup ∧ s'.path = fileInUse s.path s.prefixBackup [op] := by
  cases op with
  | write m t =>
    simp only [sinkStep, FileSink.fileWrite, FileSink.addLogFileHeader] at h
    have hu : fileInUse s.path s.prefixBackup [.write m t] = s.path := rfl
    rw [hu]
    cases hf : s.firstEntry <;> simp only [hf, if_true, Bool.false_eq_true, if_false] at h <;> by_cases h0 : s.every = 0 <;>
      by_cases h1 : (s.counter + 1) % s.every = 0 <;> simp only [h0, h1, if_true, if_false] at h <;> cases h <;> exact ⟨rfl, rfl⟩
  | change d i n nt ht o =>
    cases o with
    | true =>
      simp only [sinkStep, FileSink.changeLogFile, createLogFile, if_true] at h
      cases h
      refine ⟨rfl, ?_⟩
      exact targetName_eq s.prefixBackup d i nt
    | false =>
      simp only [sinkStep, FileSink.changeLogFile, createLogFile, Bool.false_eq_true, if_false] at h
      cases h
      exact ⟨rfl, rfl⟩
  | overrideDetails f => simp only [sinkStep] at h; cases h; exact ⟨rfl, rfl⟩
  | overrideHeader f => simp only [sinkStep] at h; cases h; exact ⟨rfl, rfl⟩
  | fileName => simp only [sinkStep] at h; cases h; exact ⟨rfl, rfl⟩
  | spill n => simp only [sinkStep] at h; cases h; exact ⟨rfl, rfl⟩

theorem inUse_cons (path p : Str) (op : SinkOp) (ops : List SinkOp) : fileInUse path p (op :: ops) = fileInUse (fileInUse path p [op]) p ops := by
  have h : targets p (op :: ops) = targets p [op] ++ targets p ops := targets_append p [op] ops
  unfold fileInUse
  rw [h, List.getLast?_append]
  cases (targets p ops).getLast? <;> rfl

theorem step_text (fb : Str) (E : Env) (s : FileSink) (fs : FS) (op : SinkOp) :
    (sinkStepD fb E s fs op).2 = diagText fb (changeLines s.prefixBackup [op]) := by
  cases op with
  | change d i n nt ht o =>
    simp only [sinkStepD, FileSink.changeLogFileD, create_text, targetName_eq]
    cases o <;> simp [changeLines, diagText]
  | _ => rfl

theorem changeLines_cons (p : Str) (op : SinkOp) (ops : List SinkOp) : changeLines p (op :: ops) = changeLines p [op] ++ changeLines p ops := by
  cases op with
  | change d i n nt ht o => cases o <;> rfl
  | _ => rfl

theorem run_text (fb : Str) (E : Env) (ops : List SinkOp) (s : FileSink) (fs : FS) {s' : FileSink} {fs' : FS} {rs : List Str}
    (h : sinkRun E s fs ops = .ok (s', fs', rs)) :
    (sinkRunD fb E s fs ops).2 = diagText fb (changeLines s.prefixBackup ops) ∧ s'.prefixBackup = s.prefixBackup ∧
      s'.path = fileInUse s.path s.prefixBackup ops := by
  induction ops generalizing s fs rs with
  | nil => cases h; exact ⟨rfl, rfl, rfl⟩
  | cons op ops ih =>
    rw [sinkRun] at h
    rw [sinkRunD]
    have ht := step_text fb E s fs op
    have h1 : (sinkStepD fb E s fs op).1 = sinkStep E s fs op := by cases op <;> rfl
    cases hx : sinkStep E s fs op with
    | error e => rw [hx] at h; cases h
    | ok x =>
      obtain ⟨s1, fs1, r⟩ := x
      rw [hx] at h h1
      simp only at h
      obtain ⟨k1, k2⟩ := change_target E s fs op hx
      generalize sinkStepD fb E s fs op = q at ht h1 ⊢
      obtain ⟨q1, q2⟩ := q
      simp only at ht h1
      subst h1 ht
      simp only
      cases hy : sinkRun E s1 fs1 ops with
      | error e => rw [hy] at h; cases h
      | ok y =>
        obtain ⟨s2, fs2, rs2⟩ := y
        rw [hy] at h
        simp only [Except.ok.injEq, Prod.mk.injEq] at h
        obtain ⟨rfl, rfl, rfl⟩ := h
        obtain ⟨j1, j2, j3⟩ := ih s1 fs1 hy
        have hs := (C95_same fb E).2.1 s1 fs1 ops
        rw [hy] at hs
        generalize sinkRunD fb E s1 fs1 ops = z at j1 hs ⊢
        obtain ⟨z1, z2⟩ := z
        simp only at j1 hs
        subst hs j1
        simp only
        refine ⟨?_, by rw [j2, k1], ?_⟩
        · rw [k1, changeLines_cons _ op ops, diag_append]
        · rw [j3, k1, k2, ← inUse_cons]

/-- C95: from its construction to its destruction a sink writes exactly this to stderr: nothing or the two lines about the directory when
it is constructed, one line for every change of the file that fails, naming that file, and at the end the time and the file that is in use
then. -/
theorem C95_life (fb : Str) (E : Env) (fs : FS) (given dir id nt : Str) (N : Nat) (o1 o2 : Bool) {s : FileSink} {fs1 : FS}
    (hnew : FileSink.new fs given dir id N nt o1 o2 = .ok (s, fs1)) (ops : List SinkOp) {s' : FileSink} {fs2 : FS} {rs : List Str}
    (hrun : sinkRun E s fs1 ops = .ok (s', fs2, rs)) (time : Str) :
    (FileSink.newD fb fs given dir id N nt o1 o2).2 ++ (sinkRunD fb E s fs1 ops).2 ++ (s'.destroyD fs2 time).2 =
      diagText fb (constructLines given dir id nt o1 o2 ++ changeLines (cleanedPrefix given) ops ++
        [.shutdown time, .logAt (fileInUse (if o1 then placeIn dir (plainName given id nt) else "./".toList ++ plainName given id nt)
          (cleanedPrefix given) ops)]) := by
  obtain ⟨h1, h2, h3⟩ := run_text fb E ops s fs1 hrun
  have hs : s.prefixBackup = cleanedPrefix given ∧
      s.path = if o1 then placeIn dir (plainName given id nt) else "./".toList ++ plainName given id nt := by
    unfold FileSink.new at hnew
    cases hp : acceptPrefix given with
    | none => rw [hp] at hnew; cases hnew
    | some p =>
      rw [hp] at hnew
      have hq : p = cleanedPrefix given := by
        unfold acceptPrefix at hp
        simp only at hp
        split at hp
        · cases hp
        · cases hp
          next hv =>
            unfold prefixSanityFix at hv ⊢
            simp only [erased] at hv ⊢
            split at hv
            · exact absurd rfl hv
            · next h => rw [if_neg h]
      subst hq
      cases o1 with
      | true =>
        simp only [createLogFile, if_true] at hnew
        cases hnew
        exact ⟨rfl, by rw [path_eq, name_eq]; rfl⟩
      | false =>
        cases o2 with
        | true =>
          simp only [createLogFile, if_true, Bool.false_eq_true, if_false] at hnew
          cases hnew
          exact ⟨rfl, by rw [name_eq]; rfl⟩
        | false =>
          simp only [createLogFile, Bool.false_eq_true, if_false] at hnew
          cases hnew
  have hd : (s'.destroyD fs2 time).2 = diagText fb [.shutdown time, .logAt s'.path] := by
    simp only [FileSink.destroyD, diagText, List.map_cons, List.map_nil, List.flatten_cons, List.flatten_nil, List.append_nil, t_illegal, t_empty, t_forced, t_cannotOpen, t_trying, t_shutdown, t_logAt,
      List.append_assoc]
  rw [C95_construction, h1, hd, h3, hs.1, hs.2, diag_append, diag_append]

/-- C95: the file named at the end is the one that the log ends in: it has the entries that were held back, and the line about the shut
down is its last. (The files are pairwise different; C42 says what happens otherwise.) -/
theorem C95_location (E : Env) {s : FileSink} {fs : FS} {p path : Str} {N : Nat} (hN : 1 ≤ N) (h : Constructed s fs p path N)
    (ops : List SinkOp) (hnd : (path :: targets p ops).Nodup) (time : Str) :
    ∃ s' fs' text, sinkRun E s fs ops = .ok (s', fs', aOuts E N p (aInit path) ops) ∧
      s'.destroy fs' time (fileInUse path p ops) = some (text ++ DiagLine.text [] (.shutdown time)) := by
  obtain ⟨s', fs', h1, h2, h3, _⟩ := C40_layout E hN h ops hnd time
  obtain ⟨_, _, h5⟩ := run_text [] E ops s fs h1
  have hp : (aRun E N p (aInit path) ops).path = fileInUse path p ops := by
    have := congrArg List.getLast? h3
    simp only [aFinal, List.map_append, List.map_cons, List.map_nil, List.getLast?_append, List.getLast?_singleton, Option.some_or] at this
    rw [List.getLast?_cons, Option.some.injEq] at this
    exact this
  have := h2 ((aRun E N p (aInit path) ops).path, _) (by unfold aFinal; exact List.mem_append_right _ (List.mem_singleton.mpr rfl))
  rw [hp] at this
  refine ⟨s', fs', chunkText ((aRun E N p (aInit path) ops).cur ++ (aRun E N p (aInit path) ops).held.map .entry), h1, this.trans ?_⟩
  simp only [chunkText, List.map_append, List.flatten_append, List.map_cons, List.map_nil, List.flatten_cons, List.flatten_nil, List.append_nil,
    Chunk.text, t_shutdown]

/-! ### Non-trivial cases -/

/-- A sink whose directory cannot be used, one change that fails and one that succeeds. -/
example : constructLines "my app".toList "logs\\".toList "g3".toList "T".toList false true =
    [.cannotOpen "logs/myapp.g3.T.log".toList, .trying] ∧
    changeLines "myapp".toList [.change "x/".toList [] [] "U".toList [] false, .fileName, .change "y/".toList [] [] "V".toList [] true] =
      [.cannotOpen "x/myapp.U.log".toList] ∧
    fileInUse "./myapp.g3.T.log".toList "myapp".toList [.change "x/".toList [] [] "U".toList [] false, .fileName, .change "y/".toList [] [] "V".toList [] true] =
      "y/myapp.V.log".toList := by decide +kernel

example : (FileSink.new (fun _ => none) "my app".toList "logs".toList "g3".toList 2 "T".toList false true).isOk = true := by decide +kernel

example : constructLines "..".toList [] [] [] true true = [.empty, .empty, .forced "..".toList] := by decide +kernel

end G3.Props
