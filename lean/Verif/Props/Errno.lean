import Verif.Spec.Errno
import Mathlib.Data.List.Induction
import Mathlib.Tactic.Tauto
/-
C133: errno in and after logging statements.
-/
namespace G3.Props
open G3 G3.Spec

/-! ### The value set last -/

theorem lastSet_nil (f : EMark → Option Int) (e : Int) : lastSet f e [] = e := rfl

theorem lastSet_snoc (f : EMark → Option Int) (e : Int) (ms : List EMark) (m : EMark) :
    lastSet f e (ms ++ [m]) = errAfter (lastSet f e ms) (f m) := by
  unfold lastSet errAfter
  rw [List.filterMap_append]
  cases h : f m <;> simp [h]

theorem lastSet_append (f : EMark → Option Int) (e : Int) (a b : List EMark) :
    lastSet f e (a ++ b) = lastSet f (lastSet f e a) b := by
  induction b using List.reverseRecOn with
  | nil => simp [lastSet_nil]
  | append_singleton b m ih => rw [← List.append_assoc, lastSet_snoc, lastSet_snoc, ih]

theorem lastSet_cons (f : EMark → Option Int) (e : Int) (m : EMark) (ms : List EMark) :
    lastSet f e (m :: ms) = lastSet f (errAfter e (f m)) ms := by
  have h := lastSet_append f e [m] ms
  have h1 := lastSet_snoc f e [] m
  rw [List.nil_append, lastSet_nil] at h1
  rw [h1] at h
  exact h

theorem err_filterMap_congr {α β : Type} {f g : α → Option β} {l : List α} (h : ∀ i ∈ l, f i = g i) :
    l.filterMap f = l.filterMap g := by
  induction l with
  | nil => rfl
  | cons a l ih =>
    rw [List.filterMap_cons, List.filterMap_cons, h a (by simp), ih fun i hi => h i (by simp [hi])]

theorem readsOf_nil (f : EMark → Option Int) (e : Int) : readsOf f e [] = [] := rfl

theorem readsOf_snoc (f : EMark → Option Int) (e : Int) (ms : List EMark) (m : EMark) :
    readsOf f e (ms ++ [m]) = readsOf f e ms ++ if m = .read then [lastSet f e ms] else [] := by
  unfold readsOf
  rw [List.length_append, List.length_singleton, List.range_succ, List.filterMap_append]
  congr 1
  · refine err_filterMap_congr fun i hi => ?_
    have hi := List.mem_range.1 hi
    rw [List.getElem?_append_left hi, List.take_append_of_le_length (Nat.le_of_lt hi)]
  · by_cases h : m = .read <;> simp [h]

theorem readsOf_append (f : EMark → Option Int) (e : Int) (a b : List EMark) :
    readsOf f e (a ++ b) = readsOf f e a ++ readsOf f (lastSet f e a) b := by
  induction b using List.reverseRecOn with
  | nil => simp [readsOf_nil]
  | append_singleton b m ih =>
    rw [← List.append_assoc, readsOf_snoc, readsOf_snoc, ih, List.append_assoc, lastSet_append]

theorem readsOf_cons (f : EMark → Option Int) (e : Int) (m : EMark) (ms : List EMark) :
    readsOf f e (m :: ms) = (if m = .read then [e] else []) ++ readsOf f (errAfter e (f m)) ms := by
  have h := readsOf_append f e [m] ms
  have h1 := readsOf_snoc f e [] m
  have h2 := lastSet_snoc f e [] m
  rw [List.nil_append, lastSet_nil] at h2
  rw [List.nil_append, readsOf_nil, List.nil_append, lastSet_nil] at h1
  rw [h1, h2] at h
  exact h

theorem histMarks_snoc (ls : List ErrLabel) (l : ErrLabel) : histMarks (ls ++ [l]) = histMarks ls ++ labelMarks ls l := by
  unfold histMarks
  rw [List.length_append, List.length_singleton, List.range_succ, List.flatMap_append]
  congr 1
  · rw [List.flatMap_def, List.flatMap_def]
    congr 1
    apply List.map_congr_left
    intro i hi
    have hi := List.mem_range.1 hi
    rw [List.getElem?_append_left hi, List.take_append_of_le_length (Nat.le_of_lt hi)]
  · simp

/-! ### Statements -/

theorem fatalStmt_iff (t : ErrStmt) : FatalStmt t ↔ t.isFatal = true := by
  unfold FatalStmt ErrStmt.isFatal
  cases t.guard <;> simp

theorem errHead_emits (e : Int) (t : ErrStmt) : (errHead e t).2 = true ↔ Emits t := by
  unfold errHead Emits
  cases t.guard with
  | log => simp
  | logIf b o => cases t.enabled <;> simp
  | check b o => simp

theorem errHead_errno (e : Int) (t : ErrStmt) : (errHead e t).1 = lastSet EMark.value e (headMarks t) := by
  unfold errHead headMarks
  cases t.guard with
  | log => simp [lastSet_cons, lastSet_nil, EMark.value]
  | logIf b o => cases t.enabled <;> simp [lastSet_cons, lastSet_nil, EMark.value]
  | check b o => simp [lastSet_cons, lastSet_nil, EMark.value]

theorem headMarks_noRead (e : Int) (f : EMark → Option Int) (t : ErrStmt) : readsOf f e (headMarks t) = [] := by
  unfold headMarks
  cases t.guard with
  | log => simp [readsOf_cons, readsOf_nil]
  | logIf b o => cases t.enabled <;> simp [readsOf_cons, readsOf_nil]
  | check b o => simp [readsOf_cons, readsOf_nil]

theorem errStream_spec (os : List (Option Int × Option Int)) : ∀ e : Int, errStream e os =
    (readsOf EMark.value e (os.flatMap fun o => [.read, .user o.1, .lib o.2]),
     lastSet EMark.value e (os.flatMap fun o => [.read, .user o.1, .lib o.2])) := by
  induction os with
  | nil => intro e; rfl
  | cons o os ih =>
    intro e
    simp only [errStream, ih, List.flatMap_cons, List.cons_append, List.nil_append, readsOf_cons, lastSet_cons, EMark.value]
    simp [errAfter]

theorem errArgs_spec (os : List (Option Int × Option Int)) : ∀ e : Int, errArgs e os =
    (readsOf EMark.value e (os.flatMap fun o => [.read, .user o.1]),
     lastSet EMark.value e (os.flatMap fun o => [.read, .user o.1])) := by
  induction os with
  | nil => intro e; rfl
  | cons o os ih =>
    intro e
    simp only [errArgs, ih, List.flatMap_cons, List.cons_append, List.nil_append, readsOf_cons, lastSet_cons, EMark.value]
    simp [errAfter]

open Classical in
theorem errBody_spec (e : Int) (t : ErrStmt) : errBody e t =
    (readsOf EMark.value e ([.lib t.ctor] ++ (if FatalStmt t then [.lib t.dump] else []) ++ operandMarks t ++ [.lib t.save]),
     lastSet EMark.value e ([.lib t.ctor] ++ (if FatalStmt t then [.lib t.dump] else []) ++ operandMarks t ++ [.lib t.save])) := by
  have h1 : lastSet EMark.value e ([.lib t.ctor] ++ (if FatalStmt t then [.lib t.dump] else [])) =
      if t.isFatal then errAfter (errAfter e t.ctor) t.dump else errAfter e t.ctor := by
    rw [fatalStmt_iff]
    cases t.isFatal <;> simp [lastSet_cons, lastSet_nil, EMark.value]
  have h2 : readsOf EMark.value e ([.lib t.ctor] ++ (if FatalStmt t then [.lib t.dump] else [])) = [] := by
    by_cases h : FatalStmt t <;> simp [h, readsOf_cons, readsOf_nil]
  generalize ([EMark.lib t.ctor] ++ (if FatalStmt t then [EMark.lib t.dump] else [])) = P at h1 h2 ⊢
  rw [readsOf_snoc, lastSet_snoc, readsOf_append, lastSet_append, h1, h2]
  simp only [errBody, operandMarks]
  cases t.printf with
  | false => simp [errStream_spec, EMark.value]
  | true => simp [errArgs_spec, readsOf_snoc, lastSet_snoc, EMark.value]

/-! ### Schedules -/

theorem errRun_snoc (s : ErrState) (ls : List ErrLabel) (l : ErrLabel) :
    errRun s (ls ++ [l]) = (errRun s ls).bind (errStep · l) := by
  induction ls generalizing s with
  | nil => simp only [List.nil_append, errRun, Option.bind_some]; cases errStep s l <;> rfl
  | cons a ls ih =>
    simp only [List.cons_append, errRun, Option.bind_assoc]
    congr 1; funext s'; exact ih s'

theorem notInit_nil : NotInit [] := by rintro ⟨a, b, h, -⟩; simp at h

theorem notInit_snoc (ls : List ErrLabel) (l : ErrLabel) :
    NotInit (ls ++ [l]) ↔ l ≠ .init ∧ (NotInit ls ∨ l = .shutdown) := by
  constructor
  · intro h
    refine ⟨fun e => h ⟨ls, [], by rw [e], by simp⟩, ?_⟩
    by_cases hs : l = .shutdown
    · exact .inr hs
    · refine .inl ?_
      rintro ⟨a, b, rfl, hb⟩
      refine h ⟨a, b ++ [l], by simp, ?_⟩
      intro hm
      rcases List.mem_append.1 hm with hm | hm
      · exact hb hm
      · exact hs (List.mem_singleton.1 hm).symm
  · rintro ⟨h1, h2⟩ ⟨a, b, h, hb⟩
    rcases List.eq_nil_or_concat b with rfl | ⟨b', x, rfl⟩
    · exact h1 (by simpa using (List.append_inj' h rfl).2)
    · rw [List.concat_eq_append] at h hb
      rw [← List.cons_append, ← List.append_assoc] at h
      obtain ⟨h3, h4⟩ := List.append_inj' h rfl
      have h4 : l = x := by simpa using h4
      subst h4
      rcases h2 with h2 | h2
      · exact h2 ⟨a, b', h3, fun hm => hb (by simp [hm])⟩
      · exact hb (by simp [h2])

theorem told_nil : ¬ Told [] := by rintro ⟨a, t, b, h, -⟩; simp at h

theorem told_snoc (ls : List ErrLabel) (l : ErrLabel) :
    Told (ls ++ [l]) ↔ Told ls ∨ ∃ t, l = .stmt t ∧ Emits t ∧ ¬ FatalStmt t ∧ NotInit ls := by
  constructor
  · rintro ⟨a, t, b, h, h1⟩
    rcases List.eq_nil_or_concat b with rfl | ⟨b', x, rfl⟩
    · obtain ⟨rfl, h4⟩ := List.append_inj' h rfl
      exact .inr ⟨t, by simpa using h4, h1⟩
    · rw [List.concat_eq_append, ← List.cons_append, ← List.append_assoc] at h
      exact .inl ⟨a, t, b', (List.append_inj' h rfl).1, h1⟩
  · rintro (⟨a, t, b, rfl, h1⟩ | ⟨t, rfl, h1⟩)
    · exact ⟨a, t, b ++ [l], by simp, h1⟩
    · exact ⟨ls, t, [], rfl, h1⟩

theorem errEnded_snoc (ls : List ErrLabel) (l : ErrLabel) :
    ErrEnded (ls ++ [l]) ↔ ErrEnded ls ∨ ∃ t, l = .stmt t ∧ Emits t ∧ FatalStmt t := by
  constructor
  · rintro ⟨t, h, h1⟩
    rcases List.mem_append.1 h with h | h
    · exact .inl ⟨t, h, h1⟩
    · exact .inr ⟨t, (List.mem_singleton.1 h).symm, h1⟩
  · rintro (⟨t, h, h1⟩ | ⟨t, rfl, h1⟩)
    · exact ⟨t, by simp [h], h1⟩
    · exact ⟨t, by simp, h1⟩

/-- What the schedule says about the state. -/
structure ErrInv (e : Int) (ls : List ErrLabel) (s : ErrState) : Prop where
  errno : s.errno = lastSet EMark.value e (histMarks ls)
  seen : s.seen = readsOf EMark.value e (histMarks ls)
  init : s.init = false ↔ NotInit ls
  told : s.told = true ↔ Told ls
  ended : s.ended = true ↔ ErrEnded ls

theorem errInv_step {e : Int} {ls : List ErrLabel} {s s' : ErrState} {l : ErrLabel} (hi : ErrInv e ls s)
    (h : errStep s l = some s') : ErrInv e (ls ++ [l]) s' := by
  unfold errStep at h
  split at h
  · exact absurd h (by simp)
  rename_i hne
  have hne' : ¬ ErrEnded ls := fun hh => hne (hi.ended.2 hh)
  cases l with
  | set v =>
    simp only [Option.some.injEq] at h
    subst h
    refine ⟨?_, ?_, ?_, ?_, ?_⟩
    · rw [histMarks_snoc, lastSet_append EMark.value e (histMarks ls)]; simp [labelMarks, lastSet_cons, lastSet_nil, EMark.value, errAfter]
    · rw [histMarks_snoc, readsOf_append EMark.value e (histMarks ls), ← hi.seen]; simp [labelMarks, readsOf_cons, readsOf_nil]
    · rw [notInit_snoc]; simp [hi.init]
    · rw [told_snoc]; simp [hi.told]
    · rw [errEnded_snoc]; simp [hi.ended]
  | init =>
    simp only at h
    split at h
    · exact absurd h (by simp)
    simp only [Option.some.injEq] at h
    subst h
    refine ⟨?_, ?_, ?_, ?_, ?_⟩
    · rw [histMarks_snoc, lastSet_append EMark.value e (histMarks ls), ← hi.errno]; simp [labelMarks, lastSet_nil]
    · rw [histMarks_snoc, readsOf_append EMark.value e (histMarks ls), ← hi.seen]; simp [labelMarks, readsOf_nil]
    · rw [notInit_snoc]; simp
    · rw [told_snoc]; simp [hi.told]
    · rw [errEnded_snoc]; simp [hi.ended]
  | shutdown =>
    simp only [Option.some.injEq] at h
    subst h
    refine ⟨?_, ?_, ?_, ?_, ?_⟩
    · rw [histMarks_snoc, lastSet_append EMark.value e (histMarks ls), ← hi.errno]; simp [labelMarks, lastSet_nil]
    · rw [histMarks_snoc, readsOf_append EMark.value e (histMarks ls), ← hi.seen]; simp [labelMarks, readsOf_nil]
    · rw [notInit_snoc]; simp
    · rw [told_snoc]; simp [hi.told]
    · rw [errEnded_snoc]; simp [hi.ended]
  | stmt t =>
    simp only at h
    have hn : NotInit (ls ++ [.stmt t]) ↔ NotInit ls := by rw [notInit_snoc]; simp
    by_cases he : Emits t
    · rw [if_pos ((errHead_emits _ t).2 he), errBody_spec, errHead_errno] at h
      by_cases hf : FatalStmt t
      · rw [if_pos ((fatalStmt_iff t).1 hf)] at h
        simp only [Option.some.injEq] at h
        subst h
        refine ⟨?_, ?_, ?_, ?_, ?_⟩
        · rw [histMarks_snoc, lastSet_append EMark.value e (histMarks ls), ← hi.errno]; simp [labelMarks, he, hf, lastSet_append]
        · rw [histMarks_snoc, readsOf_append EMark.value e (histMarks ls), ← hi.seen, ← hi.errno]
          simp [labelMarks, he, hf, readsOf_append, headMarks_noRead]
        · rw [hn]; exact hi.init
        · rw [told_snoc]; simp [hi.told, hf]
        · rw [errEnded_snoc]; simp [he, hf]
      · rw [if_neg (fun hh => hf ((fatalStmt_iff t).2 hh))] at h
        by_cases hr : NotInit ls ∧ ¬ Told ls
        · have h1 : (s.init || s.told) = false := by
            rw [Bool.or_eq_false_iff]
            exact ⟨hi.init.2 hr.1, by cases ht : s.told; rfl; exact absurd (hi.told.1 ht) hr.2⟩
          rw [if_neg (by simp [h1])] at h
          simp only [Option.some.injEq] at h
          subst h
          refine ⟨?_, ?_, ?_, ?_, ?_⟩
          · rw [histMarks_snoc, lastSet_append EMark.value e (histMarks ls), ← hi.errno]
            simp [labelMarks, he, hf, hr, lastSet_append, lastSet_cons, lastSet_nil, EMark.value]
          · rw [histMarks_snoc, readsOf_append EMark.value e (histMarks ls), ← hi.seen, ← hi.errno]
            simp [labelMarks, he, hf, hr, readsOf_append, headMarks_noRead, readsOf_cons, readsOf_nil]
          · rw [hn]; exact hi.init
          · rw [told_snoc]; simp [he, hf, hr.1]
          · rw [errEnded_snoc]; simp [hi.ended, hf]
        · have h1 : (s.init || s.told) = true := by
            rw [Bool.or_eq_true]
            by_cases hm : NotInit ls
            · exact .inr (hi.told.2 (by tauto))
            · refine .inl ?_
              cases hs : s.init
              · exact absurd (hi.init.1 hs) hm
              · rfl
          rw [if_pos h1] at h
          simp only [Option.some.injEq] at h
          subst h
          refine ⟨?_, ?_, ?_, ?_, ?_⟩
          · rw [histMarks_snoc, lastSet_append EMark.value e (histMarks ls), ← hi.errno]
            simp only [labelMarks, if_pos he, hf, hr, not_false_eq_true, true_and, if_false, List.append_nil, lastSet_append]
          · rw [histMarks_snoc, readsOf_append EMark.value e (histMarks ls), ← hi.seen, ← hi.errno]
            simp only [labelMarks, if_pos he, hf, hr, not_false_eq_true, true_and, if_false, List.append_nil, readsOf_append _ _ (headMarks t), headMarks_noRead, List.nil_append]
          · rw [hn]; exact hi.init
          · rw [told_snoc]; simp only [hi.told, Told]; constructor
            · exact .inl
            · rintro (h2 | ⟨_, _, _, _, h2⟩)
              · exact h2
              · exact Classical.byContradiction fun h3 => hr ⟨h2, h3⟩
          · rw [errEnded_snoc]; simp [hi.ended, hf]
    · rw [if_neg (fun hh => he ((errHead_emits _ t).1 hh)), errHead_errno] at h
      simp only [Option.some.injEq] at h
      subst h
      refine ⟨?_, ?_, ?_, ?_, ?_⟩
      · rw [histMarks_snoc, lastSet_append EMark.value e (histMarks ls), ← hi.errno]; simp [labelMarks, he]
      · rw [histMarks_snoc, readsOf_append EMark.value e (histMarks ls), ← hi.seen]; simp [labelMarks, he, headMarks_noRead]
      · rw [hn]; exact hi.init
      · rw [told_snoc]; simp [hi.told, he]
      · rw [errEnded_snoc]; simp [hi.ended, he]

theorem errInv_run {e : Int} (ls : List ErrLabel) : ∀ {s : ErrState}, errRun (.start e) ls = some s → ErrInv e ls s := by
  induction ls using List.reverseRecOn with
  | nil =>
    intro s h
    simp only [errRun, Option.some.injEq] at h
    subst h
    exact ⟨rfl, rfl, by simp [ErrState.start, notInit_nil], by simp [ErrState.start, told_nil],
      by simp [ErrState.start, ErrEnded]⟩
  | append_singleton ls l ih =>
    intro s h
    rw [errRun_snoc] at h
    obtain ⟨s1, h1, h2⟩ := Option.bind_eq_some_iff.1 h
    exact errInv_step (ih h1) h2

/-- C133: exactly what operands see in errno, and its value after the statements: the value that anybody, program or library, has set last, in the order
of the story: the level is tested, the condition evaluated, the capture made with the stack dump of a fatal statement, then each operand evaluated and
inserted (or all of them evaluated, then formatted), and the message saved. -/
theorem C133_exact {e : Int} {ls : List ErrLabel} {s : ErrState} (h : errRun (.start e) ls = some s) :
    s.seen = readsOf EMark.value e (histMarks ls) ∧ s.errno = lastSet EMark.value e (histMarks ls) :=
  ⟨(errInv_run ls h).seen, (errInv_run ls h).errno⟩

/-- C133: exactly which steps are possible. -/
theorem C133_can {e : Int} {ls : List ErrLabel} {s : ErrState} (h : errRun (.start e) ls = some s) (l : ErrLabel) :
    (errRun (.start e) (ls ++ [l])).isSome ↔ errPossible ls l := by
  have hi := errInv_run ls h
  rw [errRun_snoc, h, Option.bind_some]
  unfold errStep
  by_cases he : ErrEnded ls
  · rw [if_pos (hi.ended.2 he)]
    cases l <;> simp [errPossible, he]
  · rw [if_neg (fun hh => he (hi.ended.1 hh))]
    cases l with
    | init =>
      simp only [errPossible, he, not_false_eq_true, true_and]
      rw [← hi.init]
      cases s.init <;> simp
    | set v => simp [errPossible, he]
    | shutdown => simp [errPossible, he]
    | stmt t =>
      simp only [errPossible, he, not_false_eq_true, iff_true]
      split
      · split
        · rfl
        · split <;> rfl
      · rfl

theorem quiet_last {e : Int} (ms : List EMark) (h : ∀ o, .lib o ∈ ms → o = none) :
    lastSet EMark.value e ms = lastSet EMark.own e ms := by
  induction ms using List.reverseRecOn with
  | nil => rfl
  | append_singleton ms m ih =>
    rw [lastSet_snoc, lastSet_snoc, ih fun o ho => h o (by simp [ho])]
    cases m with
    | lib o => rw [h o (by simp)]; rfl
    | user o => rfl
    | read => rfl

theorem quiet_reads {e : Int} (ms : List EMark) (h : ∀ o, .lib o ∈ ms → o = none) :
    readsOf EMark.value e ms = readsOf EMark.own e ms := by
  induction ms using List.reverseRecOn with
  | nil => rfl
  | append_singleton ms m ih =>
    have h' : ∀ o, .lib o ∈ ms → o = none := fun o ho => h o (by simp [ho])
    rw [readsOf_snoc, readsOf_snoc, ih h', quiet_last ms h']

/-- C133, if the calls of the library leave errno alone: operands see errno as the program set it last, and so does the program
after its statements. Missing: calls that do set it, C133_dump_negation, C133_insert_negation, C133_report_negation. -/
theorem C133_statement_partial {e : Int} {ls : List ErrLabel} {s : ErrState} (h : errRun (.start e) ls = some s)
    (hq : QuietLib ls) : ErrnoKept e ls s := by
  obtain ⟨h1, h2⟩ := C133_exact h
  exact ⟨h1.trans (quiet_reads _ hq), h2.trans (quiet_last _ hq)⟩

theorem own_operands (t : ErrStmt) : (operandMarks t).filterMap EMark.own = t.ops.flatMap fun o => o.1.toList := by
  have h1 : ∀ os : List (Option Int × Option Int),
      (os.flatMap fun o => [EMark.read, .user o.1, .lib o.2]).filterMap EMark.own = os.flatMap fun o => o.1.toList := by
    intro os
    induction os with
    | nil => rfl
    | cons o os ih =>
      rw [List.flatMap_cons, List.filterMap_append, ih, List.flatMap_cons]
      cases h : o.1 <;> simp [EMark.own, List.filterMap_cons]
  have h2 : ∀ os : List (Option Int × Option Int),
      (os.flatMap fun o => [EMark.read, .user o.1]).filterMap EMark.own = os.flatMap fun o => o.1.toList := by
    intro os
    induction os with
    | nil => rfl
    | cons o os ih =>
      rw [List.flatMap_cons, List.filterMap_append, ih, List.flatMap_cons]
      cases h : o.1 <;> simp [EMark.own, List.filterMap_cons]
  unfold operandMarks
  split
  · rw [List.filterMap_append, h2]; simp [EMark.own]
  · exact h1 _

/-- C133: what counts as set by the program is exactly what it sets outside statements, in conditions and in operands that are evaluated; so the value
that the property promises after the statements does not depend on any call of the library. -/
theorem C133_own (e : Int) (ls : List ErrLabel) : lastSet EMark.own e (histMarks ls) = (progSets ls).getLast?.getD e := by
  have h : (histMarks ls).filterMap EMark.own = progSets ls := by
    induction ls using List.reverseRecOn with
    | nil => rfl
    | append_singleton ls l ih =>
      rw [histMarks_snoc, List.filterMap_append, ih]
      unfold progSets
      rw [List.flatMap_append]
      congr 1
      cases l with
      | set v => rfl
      | init => rfl
      | shutdown => rfl
      | stmt t =>
        have hh : (headMarks t).filterMap EMark.own = (match t.guard with
            | .log => []
            | .logIf _ o => if t.enabled then o.toList else []
            | .check _ o => o.toList) := by
          unfold headMarks
          cases t.guard with
          | log => simp [EMark.own]
          | logIf b o => cases t.enabled <;> cases o <;> rfl
          | check b o => cases o <;> simp [EMark.own]
        simp only [labelMarks, List.flatMap_cons, List.flatMap_nil, List.append_nil, List.filterMap_append, hh]
        congr 1
        by_cases he : Emits t
        · rw [if_pos he, if_pos he]
          simp only [List.filterMap_append, own_operands]
          have hq : ∀ (c : Prop) [Decidable c] (o : Option Int), (if c then [EMark.lib o] else []).filterMap EMark.own = [] := by
            intro c _ o; by_cases hc : c <;> simp [hc, EMark.own]
          have h1 : ∀ o : Option Int, [EMark.lib o].filterMap EMark.own = [] := fun _ => rfl
          rw [hq, hq, h1, h1]
          simp
        · rw [if_neg he, if_neg he]; rfl
  unfold lastSet
  rw [h]

/-- C133: the arguments of a printf-like statement that is not fatal all see errno as it was before, if testing the level and making the capture
leave it alone and no argument sets it itself: formatting, saving and reporting come after all of them. -/
theorem C133_printf {s s' : ErrState} {t : ErrStmt} (h : errStep s (.stmt t) = some s') (hp : t.printf = true) (he : Emits t)
    (hf : ¬ FatalStmt t) (hm : ∀ m ∈ headMarks t, m.value = none) (hc : t.ctor = none) (ho : ∀ o ∈ t.ops, o.1 = none) :
    s'.seen = s.seen ++ List.replicate t.ops.length s.errno := by
  have hq : ∀ (e : Int) (ms : List EMark), (∀ m ∈ ms, m.value = none) → lastSet EMark.value e ms = e := by
    intro e ms hms
    unfold lastSet
    rw [List.filterMap_eq_nil_iff.2 hms]
    rfl
  have ha : ∀ (os : List (Option Int × Option Int)) (e : Int), (∀ o ∈ os, o.1 = none) → (errArgs e os).1 = List.replicate os.length e := by
    intro os
    induction os with
    | nil => intro e _; rfl
    | cons o os ih =>
      intro e hos
      simp only [errArgs, hos o (by simp), List.length_cons, List.replicate_succ]
      rw [ih _ fun x hx => hos x (by simp [hx])]
      rfl
  have hb : (errBody (errHead s.errno t).1 t).1 = List.replicate t.ops.length s.errno := by
    have hf' : t.isFatal = false := by
      cases hx : t.isFatal
      · rfl
      · exact absurd ((fatalStmt_iff t).2 hx) hf
    rw [errHead_errno, hq _ _ hm]
    simp only [errBody, hc, hp, hf', errAfter]
    exact ha _ _ ho
  unfold errStep at h
  split at h
  · exact absurd h (by simp)
  simp only at h
  rw [if_pos ((errHead_emits _ t).2 he), if_neg (fun hh => hf ((fatalStmt_iff t).2 hh))] at h
  split at h <;>
  · simp only [Option.some.injEq] at h
    subst h
    rw [hb]

/-! ### Where the property fails -/

/-- A statement whose calls all leave errno alone. -/
def quietStmt (g : ErrGuard) (ops : List (Option Int × Option Int)) : ErrStmt :=
  { guard := g, fatalLevel := false, enabled := true, printf := false, ops := ops, test := none, ctor := none, dump := none,
    format := none, save := none, report := none }

theorem err_emits_check (o : Option Int) (ops d) : Emits { quietStmt (.check false o) ops with dump := d } := rfl
theorem err_emits_log (ops d) : Emits { quietStmt .log ops with report := d } := rfl
theorem err_notFatal (ops d) : ¬ FatalStmt { quietStmt .log ops with report := d } := by
  rintro (h | ⟨_, _, h⟩) <;> simp [quietStmt] at h

/-- C133: the condition belongs to the program: `CHECK((fd = open(name)) >= 0) << strerror(errno)` and the same with LOG_IF show what the condition has
set, if the calls of the library leave errno alone. -/
theorem C133_condition (e v : Int) (g : ErrGuard) (hg : g = .check false (some v) ∨ g = .logIf true (some v)) :
    ∃ s, errRun (.start e) [.stmt (quietStmt g [(none, none)])] = some s ∧ s.seen = [v] ∧ s.errno = v ∧
      ErrnoKept e [.stmt (quietStmt g [(none, none)])] s ∧ QuietLib [.stmt (quietStmt g [(none, none)])] := by
  have h1 := histMarks_snoc [] (.stmt (quietStmt g [(none, none)]))
  simp only [List.nil_append] at h1
  have he : Emits (quietStmt g [(none, none)]) := by rcases hg with rfl | rfl <;> simp [Emits, quietStmt]
  have hm : ∀ m ∈ histMarks [.stmt (quietStmt g [(none, none)])], m = .lib none ∨ m = .user (some v) ∨ m = .read ∨ m = .user none := by
    rw [h1]
    rcases hg with rfl | rfl <;>
    · simp only [labelMarks, if_pos he, histMarks, headMarks, operandMarks, quietStmt]
      grind
  have hq : QuietLib [.stmt (quietStmt g [(none, none)])] := by
    intro o ho
    rcases hm _ ho with h | h | h | h <;> simp_all
  have hr : ∃ s, errRun (.start e) [.stmt (quietStmt g [(none, none)])] = some s ∧ s.seen = [v] ∧ s.errno = v := by
    rcases hg with rfl | rfl <;> exact ⟨_, rfl, rfl, rfl⟩
  obtain ⟨s, h2, h3, h4⟩ := hr
  exact ⟨s, h2, h3, h4, C133_statement_partial h2 hq, hq⟩

/-- C133 fails: a failed `CHECK(fd >= 0) << strerror(errno)` makes the stack dump before the operand is evaluated; if that sets errno, the message tells a
wrong reason, although all other calls leave errno alone. -/
theorem C133_dump_negation : ∃ t s, t = { quietStmt (.check false none) [(none, none)] with dump := some 22 } ∧
    errRun (.start 0) [.init, .set 2, .stmt t] = some s ∧ s.seen = [22] ∧ ¬ ErrnoKept 0 [.init, .set 2, .stmt t] s := by
  refine ⟨_, { errno := 22, init := true, told := false, ended := true, seen := [22] }, rfl, by decide +kernel, rfl, ?_⟩
  rintro ⟨h, -⟩
  have h1 := histMarks_snoc [.init, .set 2] (.stmt { quietStmt (.check false none) [(none, none)] with dump := some 22 })
  have h2 := histMarks_snoc [.init] (.set 2)
  have h3 := histMarks_snoc [] .init
  simp only [List.nil_append, List.cons_append] at h1 h2 h3
  have hf : FatalStmt { quietStmt (.check false none) [(none, none)] with dump := some 22 } := .inr ⟨_, _, rfl⟩
  rw [h1, h2, h3] at h
  simp only [labelMarks, if_pos (err_emits_check none [(none, none)] (some 22)), if_pos hf] at h
  rw [if_neg (by tauto)] at h
  revert h
  decide +kernel

/-- C133 fails: in `LOG(INFO) << name << errno` the name is inserted before errno is read; if the growing of the stream sets it, the message shows
that value. -/
theorem C133_insert_negation : ∃ t s, t = quietStmt .log [(none, some 12), (none, none)] ∧
    errRun (.start 0) [.init, .set 2, .stmt t] = some s ∧ s.seen = [2, 12] ∧ ¬ ErrnoKept 0 [.init, .set 2, .stmt t] s := by
  refine ⟨_, { errno := 12, init := true, told := false, ended := false, seen := [2, 12] }, rfl, by decide +kernel, rfl, ?_⟩
  rintro ⟨h, -⟩
  have h1 := histMarks_snoc [.init, .set 2] (.stmt (quietStmt .log [(none, some 12), (none, none)]))
  have h2 := histMarks_snoc [.init] (.set 2)
  have h3 := histMarks_snoc [] .init
  simp only [List.nil_append, List.cons_append] at h1 h2 h3
  have hn : ¬ NotInit [.init, .set 2] := fun hn => hn ⟨[], [.set 2], rfl, by simp⟩
  rw [h1, h2, h3] at h
  have he : Emits (quietStmt .log [(none, some 12), (none, none)]) := rfl
  have hf : ¬ FatalStmt (quietStmt .log [(none, some 12), (none, none)]) := err_notFatal _ none
  simp only [labelMarks, if_pos he, if_neg hf] at h
  rw [if_neg (by tauto)] at h
  revert h
  decide +kernel

/-- C133 fails: the first message before initialisation is reported on stderr; if that cannot be written, the program finds a different errno after the
statement. The second message does not change it. -/
theorem C133_report_negation : ∃ t s, t = { quietStmt .log [] with report := some 9 } ∧
    errRun (.start 0) [.set 2, .stmt t] = some s ∧ s.errno = 9 ∧ ¬ ErrnoKept 0 [.set 2, .stmt t] s ∧
    (errRun (.start 0) [.set 2, .stmt t, .set 3, .stmt t]).map ErrState.errno = some 3 := by
  refine ⟨_, { errno := 9, init := false, told := true, ended := false, seen := [] }, rfl, by decide +kernel, rfl, ?_, by decide +kernel⟩
  rintro ⟨-, h⟩
  have h1 := histMarks_snoc [.set 2] (.stmt { quietStmt .log [] with report := some 9 })
  have h2 := histMarks_snoc [] (.set 2)
  simp only [List.nil_append, List.cons_append] at h1 h2
  have hn : NotInit [.set 2] := by
    rintro ⟨a, b, hh, -⟩
    have : ErrLabel.init ∈ [ErrLabel.set 2] := by rw [hh]; simp
    simp at this
  have ht : ¬ Told [.set 2] := by
    rintro ⟨a, t, b, hh, -⟩
    have : ErrLabel.stmt t ∈ [ErrLabel.set 2] := by rw [hh]; simp
    simp at this
  rw [h1, h2] at h
  simp only [labelMarks, if_pos (err_emits_log [] (some 9)), if_neg (err_notFatal [] (some 9))] at h
  rw [if_pos ⟨err_notFatal [] (some 9), hn, ht⟩] at h
  revert h
  decide +kernel

/-! ### Examples -/

/-- C133_exact, C133_can, C133_statement_partial: a program that meets the hypotheses, with two statements. -/
example : ∃ s, errRun (.start 0) [.set 2, .stmt (quietStmt .log [(none, none)]), .init, .set 5,
      .stmt (quietStmt (.logIf true (some 7)) [(some 4, none), (none, none)])] = some s ∧ s.seen = [2, 7, 4] ∧ s.errno = 4 :=
  ⟨{ errno := 4, init := true, told := true, ended := false, seen := [2, 7, 4] }, by decide +kernel, rfl, rfl⟩

/-- C133_statement_partial: its hypothesis holds for a statement that emits. -/
example : QuietLib [.init, .stmt (quietStmt .log [(none, none)])] := by
  intro o ho
  have h1 := histMarks_snoc [.init] (.stmt (quietStmt .log [(none, none)]))
  have h3 := histMarks_snoc [] .init
  simp only [List.nil_append, List.cons_append] at h1 h3
  rw [h1, h3] at ho
  simp only [labelMarks, histMarks, headMarks, operandMarks, quietStmt] at ho
  grind

/-- C133_printf: a statement that meets its hypotheses, with a formatting that sets errno. -/
example : ∃ t s', t = { quietStmt .log [(none, none), (none, none)] with printf := true, format := some 84 } ∧
    errStep { errno := 2, init := true, told := false, ended := false, seen := [] } (.stmt t) = some s' ∧ s'.seen = [2, 2] ∧
    s'.errno = 84 ∧ Emits t ∧ ∀ m ∈ headMarks t, m.value = none :=
  ⟨_, { errno := 84, init := true, told := false, ended := false, seen := [2, 2] }, rfl, by decide +kernel, rfl, rfl, rfl,
    by simp [headMarks, quietStmt, EMark.value]⟩

end G3.Props
