import Verif.Spec.WriteSignal
import Mathlib.Data.List.Induction
import Mathlib.Tactic.Tauto
/-
C134: write errors that the system announces by a signal.
-/
namespace G3.Props
open G3 G3.Spec

variable {M : Type} {deadly : Nat → Bool}

theorem wsRun_snoc (s : WSigState M) (ls : List (WSigLabel M)) (l : WSigLabel M) :
    wsRun deadly s (ls ++ [l]) = (wsRun deadly s ls).bind (wsStep deadly · l) := by
  induction ls generalizing s with
  | nil => simp only [List.nil_append, wsRun, Option.bind_some]; cases wsStep deadly s l <;> rfl
  | cons a ls ih =>
    simp only [List.cons_append, wsRun, Option.bind_assoc]
    congr 1; funext s'; exact ih s'

/-! ### The specification, step by step -/

theorem fileFailed_append (k : Nat) (a b : List (WSigLabel M)) : FileFailed k (a ++ b) ↔ FileFailed k a ∨ FileFailed k b := by
  unfold FileFailed
  constructor
  · rintro ⟨l, hl, h⟩
    rcases List.mem_append.1 hl with hl | hl
    · exact .inl ⟨l, hl, h⟩
    · exact .inr ⟨l, hl, h⟩
  · rintro (⟨l, hl, h⟩ | ⟨l, hl, h⟩)
    · exact ⟨l, by simp [hl], h⟩
    · exact ⟨l, by simp [hl], h⟩

theorem fileFailed_snoc (k : Nat) (ls : List (WSigLabel M)) (l : WSigLabel M) :
    FileFailed k (ls ++ [l]) ↔ FileFailed k ls ∨ ∃ g, fileOut k l = some (.fail g) := by
  rw [fileFailed_append]
  simp [FileFailed]

theorem fileOut_other {k : Nat} {l : WSigLabel M} (h : sinkOf l ≠ k) : fileOut k l = none := by
  cases l <;> simp_all [fileOut, sinkOf]

theorem fileOut_self {k : Nat} {l : WSigLabel M} {o : WOut} (h : fileOut k l = some o) : sinkOf l = k := by
  by_cases hk : sinkOf l = k
  · exact hk
  · rw [fileOut_other hk] at h; simp at h

theorem entriesFor_snoc (k : Nat) (ls : List (WSigLabel M)) (l : WSigLabel M) :
    entriesFor k (ls ++ [l]) = entriesFor k ls ++ entriesFor k [l] := by
  simp [entriesFor, List.filterMap_append]

theorem entriesFor_other {k : Nat} {l : WSigLabel M} (h : sinkOf l ≠ k) : entriesFor k [l] = [] := by
  cases l <;> simp_all [entriesFor, sinkOf]

theorem entriesFor_transfer {k : Nat} {l : WSigLabel M} {o : WOut} (h : fileOut k l = some o) : entriesFor k [l] = [] := by
  cases l with
  | put j m => simp [fileOut] at h
  | flush j o => rfl
  | destroy j o o' => rfl

theorem fileHas_keep {k : Nat} {ls : List (WSigLabel M)} {l : WSigLabel M} {f : List M} (h : FileHas k ls f)
    (hl : fileOut k l ≠ some .ok ∨ FileFailed k ls) : FileHas k (ls ++ [l]) f := by
  obtain ⟨a, b, rfl, hf, ha, hn, hb⟩ := h
  refine ⟨a, b ++ [l], by simp, hf, ha, hn, ?_⟩
  intro b1 x b2 hx hok
  rcases List.eq_nil_or_concat b2 with rfl | ⟨b2', y, rfl⟩
  · obtain ⟨rfl, h4⟩ := List.append_inj' hx rfl
    have h4 : l = x := by simpa using h4
    subst h4
    rcases hl with hl | hl
    · exact absurd hok hl
    · exact ((fileFailed_append k a b).1 hl).resolve_left hn
  · rw [List.concat_eq_append, ← List.cons_append, ← List.append_assoc] at hx
    exact hb b1 x b2' (List.append_inj' hx rfl).1 hok

theorem fileHas_ok {k : Nat} {ls : List (WSigLabel M)} {l : WSigLabel M} (hl : fileOut k l = some .ok) (hn : ¬ FileFailed k ls) :
    FileHas k (ls ++ [l]) (entriesFor k ls) := by
  refine ⟨ls ++ [l], [], by simp, ?_, .inr ⟨ls, l, rfl, hl⟩, ?_, ?_⟩
  · rw [entriesFor_snoc, entriesFor_transfer hl, List.append_nil]
  · rw [fileFailed_snoc, hl]; simp [hn]
  · intro b1 x b2 h; simp at h

theorem sinkGone_snoc (k : Nat) (ls : List (WSigLabel M)) (l : WSigLabel M) :
    SinkGone k (ls ++ [l]) ↔ SinkGone k ls ∨ ∃ o o', l = .destroy k o o' := by
  unfold SinkGone
  constructor
  · rintro ⟨o, o', h⟩
    rcases List.mem_append.1 h with h | h
    · exact .inl ⟨o, o', h⟩
    · exact .inr ⟨o, o', (List.mem_singleton.1 h).symm⟩
  · rintro (⟨o, o', h⟩ | ⟨o, o', rfl⟩)
    · exact ⟨o, o', by simp [h]⟩
    · exact ⟨o, o', by simp⟩

theorem cerrFailed_snoc (ls : List (WSigLabel M)) (l : WSigLabel M) :
    CerrFailed deadly (ls ++ [l]) ↔ CerrFailed deadly ls ∨
      ∃ k o g, l = .destroy k o (.fail g) ∧ ∀ g', ¬ KillsByFile deadly ls l g' := by
  constructor
  · rintro ⟨a, b, k, o, g, h, hk⟩
    rcases List.eq_nil_or_concat b with rfl | ⟨b', y, rfl⟩
    · obtain ⟨rfl, h4⟩ := List.append_inj' h rfl
      have h4 : l = .destroy k o (.fail g) := by simpa using h4
      exact .inr ⟨k, o, g, h4, by rw [h4]; exact hk⟩
    · rw [List.concat_eq_append, ← List.cons_append, ← List.append_assoc] at h
      exact .inl ⟨a, b', k, o, g, (List.append_inj' h rfl).1, hk⟩
  · rintro (⟨a, b, k, o, g, rfl, hk⟩ | ⟨k, o, g, rfl, hk⟩)
    · exact ⟨a, b ++ [l], k, o, g, by simp, hk⟩
    · exact ⟨ls, [], k, o, g, rfl, hk⟩

theorem endedBy_nil (g : Nat) : ¬ EndedBy deadly ([] : List (WSigLabel M)) g := by rintro ⟨a, l, h, -⟩; simp at h

theorem endedBy_snoc (ls : List (WSigLabel M)) (l : WSigLabel M) (g : Nat) :
    EndedBy deadly (ls ++ [l]) g ↔ EndsProcess deadly ls l g := by
  constructor
  · rintro ⟨a, x, h, hx⟩
    obtain ⟨rfl, h4⟩ := List.append_inj' h rfl
    have h4 : l = x := by simpa using h4
    exact h4 ▸ hx
  · intro h; exact ⟨ls, l, rfl, h⟩

theorem kills_iff (o : WOut) (g : Nat) : o.kills deadly = some g ↔ Deadly deadly o g := by
  unfold WOut.kills Deadly
  cases o with
  | ok => simp
  | fail x =>
    cases x with
    | none => simp
    | some x =>
      simp only [Option.ite_none_right_eq_some, Option.some.injEq, WOut.fail.injEq]
      constructor
      · rintro ⟨h, rfl⟩; exact ⟨rfl, h⟩
      · rintro ⟨rfl, h⟩; exact ⟨h, rfl⟩

theorem killsByFile_iff {k : Nat} {ls : List (WSigLabel M)} {l : WSigLabel M} {o : WOut} (hl : fileOut k l = some o) (g : Nat) :
    KillsByFile deadly ls l g ↔ Deadly deadly o g ∧ ¬ FileFailed k ls := by
  constructor
  · rintro ⟨k', o', h, hd, hn⟩
    have hk : k' = k := (fileOut_self h).symm.trans (fileOut_self hl)
    subst hk
    rw [hl] at h
    cases h
    exact ⟨hd, hn⟩
  · rintro ⟨hd, hn⟩; exact ⟨k, o, hl, hd, hn⟩

/-! ### The invariant -/

/-- What the schedule says about a sink. -/
structure WSinkInv (k : Nat) (ls : List (WSigLabel M)) (K : WSink M) : Prop where
  alive : K.alive = false ↔ SinkGone k ls
  bad : K.bad = true ↔ FileFailed k ls
  file : FileHas k ls K.file
  buf : ¬ FileFailed k ls → K.file ++ K.buf = entriesFor k ls

theorem wsink_other {k : Nat} {ls : List (WSigLabel M)} {K : WSink M} {l : WSigLabel M} (h : WSinkInv k ls K)
    (hl : sinkOf l ≠ k) : WSinkInv k (ls ++ [l]) K := by
  have ho := fileOut_other hl
  refine ⟨?_, ?_, fileHas_keep h.file (.inl (by simp [ho])), ?_⟩
  · rw [sinkGone_snoc, h.alive]
    constructor
    · exact .inl
    · rintro (h1 | ⟨o, o', rfl⟩)
      · exact h1
      · exact absurd rfl hl
  · rw [fileFailed_snoc, h.bad, ho]; simp
  · rw [fileFailed_snoc, ho, entriesFor_snoc, entriesFor_other hl]
    intro hn
    rw [List.append_nil]
    exact h.buf fun hf => hn (.inl hf)

/-- A transfer, whatever happens to the life of the sink. -/
theorem wsink_transfer {k : Nat} {ls : List (WSigLabel M)} {K : WSink M} {l : WSigLabel M} {o : WOut} (h : WSinkInv k ls K)
    (hl : fileOut k l = some o) :
    (∀ v : Bool, (v = false ↔ SinkGone k (ls ++ [l])) → WSinkInv k (ls ++ [l]) { (K.transfer deadly o).1 with alive := v }) ∧
    (K.transfer deadly o).1.alive = K.alive ∧
    ∀ g, (K.transfer deadly o).2 = some g ↔ KillsByFile deadly ls l g := by
  by_cases hb : K.bad = true
  · have hf := h.bad.1 hb
    have ht : K.transfer deadly o = ({ K with buf := [] }, none) := by unfold WSink.transfer; rw [if_pos hb]
    rw [ht]
    refine ⟨fun v hv => ⟨hv, ?_, fileHas_keep h.file (.inr hf), ?_⟩, rfl, ?_⟩
    · simp only [fileFailed_snoc, hb, hf, true_or]
    · intro hn; exact absurd ((fileFailed_snoc k ls l).2 (.inl hf)) hn
    · intro g; rw [killsByFile_iff hl]; simp [hf]
  · have hf : ¬ FileFailed k ls := fun hh => hb (h.bad.2 hh)
    have hb' : K.bad = false := by simpa using hb
    cases o with
    | ok =>
      have ht : K.transfer deadly .ok = ({ K with file := K.file ++ K.buf, buf := [] }, none) := by
        unfold WSink.transfer; rw [if_neg hb]
      rw [ht]
      refine ⟨fun v hv => ⟨hv, ?_, ?_, ?_⟩, rfl, ?_⟩
      · simp [fileFailed_snoc, hb', hf, hl]
      · simp only [h.buf hf]; exact fileHas_ok hl hf
      · intro _
        simp only [h.buf hf, entriesFor_snoc, entriesFor_transfer hl]
      · intro g; rw [killsByFile_iff hl]; simp [Deadly]
    | fail x =>
      have ht : K.transfer deadly (.fail x) = ({ K with buf := [], bad := true }, (WOut.fail x).kills deadly) := by
        unfold WSink.transfer; rw [if_neg hb]
      rw [ht]
      have hf' : FileFailed k (ls ++ [l]) := (fileFailed_snoc k ls l).2 (.inr ⟨x, hl⟩)
      refine ⟨fun v hv => ⟨hv, by simp [hf'], fileHas_keep h.file (.inl (by simp [hl])), fun hn => absurd hf' hn⟩, rfl, ?_⟩
      intro g
      rw [killsByFile_iff hl, ← kills_iff]
      simp [hf]

/-- What the schedule says about the process. -/
structure WSigInv (deadly : Nat → Bool) (ls : List (WSigLabel M)) (s : WSigState M) : Prop where
  sink : ∀ k, WSinkInv k ls (s.sink k)
  cerr : s.cerrBad = true ↔ CerrFailed deadly ls
  killed : ∀ g, s.killed = some g ↔ EndedBy deadly ls g

theorem wsink_update {ls : List (WSigLabel M)} {s : WSigState M} {l : WSigLabel M} (hi : WSigInv deadly ls s) {K : WSink M}
    (h : WSinkInv (sinkOf l) (ls ++ [l]) K) (j : Nat) : WSinkInv j (ls ++ [l]) (Function.update s.sink (sinkOf l) K j) := by
  by_cases hj : j = sinkOf l
  · subst hj; simpa using h
  · rw [Function.update_of_ne hj]
    exact wsink_other (hi.sink j) (fun e => hj e.symm)

theorem none_iff_false {α : Type} {p : α → Prop} (h : ∀ g, ¬ p g) (g : α) : (none : Option α) = some g ↔ p g := by
  simp [h g]

theorem wsInv_step {ls : List (WSigLabel M)} {s s' : WSigState M} {l : WSigLabel M} (hi : WSigInv deadly ls s)
    (h : wsStep deadly s l = some s') : WSigInv deadly (ls ++ [l]) s' := by
  unfold wsStep at h
  split at h
  · exact absurd h (by simp)
  rename_i hk
  have hk0 : s.killed = none := by cases hx : s.killed <;> simp_all
  cases l with
  | put k m =>
    simp only at h
    split at h
    · rename_i ha
      simp only [Option.some.injEq] at h
      subst h
      have hg : ¬ SinkGone k ls := fun hh => by rw [← (hi.sink k).alive] at hh; simp [hh] at ha
      refine ⟨wsink_update (l := .put k m) hi ?_, ?_, ?_⟩
      · refine ⟨?_, ?_, fileHas_keep (hi.sink k).file (.inl (by simp [fileOut])), ?_⟩
        · rw [sinkGone_snoc]; simp [sinkOf, ha, hg]
        · rw [fileFailed_snoc]; simp [sinkOf, fileOut, (hi.sink k).bad]
        · rw [fileFailed_snoc, entriesFor_snoc]
          intro hn
          have h1 := (hi.sink k).buf fun hf => hn (.inl hf)
          simp only [sinkOf]
          rw [← List.append_assoc, h1]
          simp [entriesFor]
      · rw [cerrFailed_snoc]; simp [hi.cerr]
      · intro g
        rw [endedBy_snoc, hk0]
        refine none_iff_false (fun g => ?_) g
        rintro (⟨j, o, h1, -⟩ | ⟨j, o, o', h1, -⟩)
        · simp [fileOut] at h1
        · simp at h1
    · simp at h
  | flush k o =>
    simp only at h
    split at h
    · rename_i ha
      simp only [Option.some.injEq] at h
      subst h
      have hl : fileOut k (WSigLabel.flush k o : WSigLabel M) = some o := by simp [fileOut]
      have hg : ¬ SinkGone k ls := fun hh => by rw [← (hi.sink k).alive] at hh; simp [hh] at ha
      obtain ⟨h1, h2, h3⟩ := wsink_transfer (deadly := deadly) (hi.sink k) hl
      refine ⟨wsink_update (l := .flush k o) hi ?_, ?_, ?_⟩
      · have h4 := h1 ((s.sink k).transfer deadly o).1.alive (by rw [h2, sinkGone_snoc]; simp [ha, hg])
        exact h4
      · rw [cerrFailed_snoc]; simp [hi.cerr]
      · intro g
        rw [endedBy_snoc, h3]
        unfold EndsProcess
        simp
    · simp at h
  | destroy k o o' =>
    simp only at h
    split at h
    · rename_i ha
      have hl : fileOut k (WSigLabel.destroy k o o' : WSigLabel M) = some o := by simp [fileOut]
      obtain ⟨h1, h2, h3⟩ := wsink_transfer (deadly := deadly) (hi.sink k) hl
      have hg : SinkGone k (ls ++ [.destroy k o o']) := (sinkGone_snoc _ _ _).2 (.inr ⟨o, o', rfl⟩)
      have h4 := h1 false (by simp [hg])
      have h5 := wsink_update (l := .destroy k o o') hi h4
      split at h
      · rename_i g hr
        simp only [Option.some.injEq] at h
        subst h
        have h6 := (h3 g).1 hr
        refine ⟨h5, ?_, ?_⟩
        · rw [cerrFailed_snoc]
          simp only [hi.cerr]
          constructor
          · exact .inl
          · rintro (h7 | ⟨_, _, _, h7, h8⟩)
            · exact h7
            · exact absurd h6 (h8 g)
        · intro g'
          rw [endedBy_snoc]
          unfold EndsProcess
          rw [← h3, hr]
          constructor
          · exact .inl
          · rintro (h7 | ⟨_, _, _, _, h8, _⟩)
            · exact h7
            · exact absurd h6 (h8 g)
      · rename_i hr
        have h6 : ∀ g, ¬ KillsByFile deadly ls (.destroy k o o') g := by
          intro g hh
          rw [← h3, hr] at hh
          simp at hh
        split at h
        · rename_i hc
          simp only [Option.some.injEq] at h
          subst h
          have hc' := hi.cerr.1 hc
          refine ⟨h5, ?_, ?_⟩
          · rw [cerrFailed_snoc]; simp [hc, hc']
          · intro g
            rw [endedBy_snoc]
            simp only [hk0]
            refine none_iff_false (fun g => ?_) g
            rintro (h7 | ⟨_, _, _, _, _, _, h8⟩)
            · exact h6 g h7
            · exact h8 hc'
        · rename_i hc
          have hc' : ¬ CerrFailed deadly ls := fun hh => hc (hi.cerr.2 hh)
          split at h
          · simp only [Option.some.injEq] at h
            subst h
            refine ⟨h5, ?_, ?_⟩
            · rw [cerrFailed_snoc]; simp [hi.cerr]
            · intro g
              rw [endedBy_snoc]
              simp only [hk0]
              refine none_iff_false (fun g => ?_) g
              rintro (h7 | ⟨_, _, _, h7, _, h8, _⟩)
              · exact h6 g h7
              · cases h7; simp [Deadly] at h8
          · rename_i x
            simp only [Option.some.injEq] at h
            subst h
            refine ⟨h5, ?_, ?_⟩
            · rw [cerrFailed_snoc]
              simp only [true_iff]
              exact .inr ⟨k, o, x, rfl, h6⟩
            · intro g
              rw [endedBy_snoc]
              simp only [kills_iff]
              constructor
              · intro h7; exact .inr ⟨k, o, _, rfl, h6, h7, hc'⟩
              · rintro (h7 | ⟨_, _, _, h7, _, h8, _⟩)
                · exact absurd h7 (h6 g)
                · cases h7; exact h8
    · simp at h

theorem wsInv_run (ls : List (WSigLabel M)) : ∀ {s : WSigState M}, wsRun deadly .start ls = some s → WSigInv deadly ls s := by
  induction ls using List.reverseRecOn with
  | nil =>
    intro s h
    simp only [wsRun, Option.some.injEq] at h
    subst h
    refine ⟨fun k => ⟨?_, ?_, ⟨[], [], rfl, rfl, .inl rfl, by simp [FileFailed], by simp⟩, fun _ => rfl⟩, ?_, ?_⟩
    · simp [WSigState.start, SinkGone]
    · simp [WSigState.start, FileFailed]
    · simp [WSigState.start, CerrFailed]
    · intro g; simp [WSigState.start, endedBy_nil]
  | append_singleton ls l ih =>
    intro s h
    rw [wsRun_snoc] at h
    obtain ⟨s1, h1, h2⟩ := Option.bind_eq_some_iff.1 h
    exact wsInv_step (ih h1) h2

/-! ### The property -/

/-- C134: for every schedule exactly what is in the files, and by which signal the process has ended. -/
theorem C134_exact {ls : List (WSigLabel M)} {s : WSigState M} (h : wsRun deadly .start ls = some s) :
    (∀ k, FileHas k ls (s.sink k).file) ∧ ∀ g, s.killed = some g ↔ EndedBy deadly ls g :=
  ⟨fun k => ((wsInv_run ls h).sink k).file, (wsInv_run ls h).killed⟩

/-- C134: exactly which steps are possible: none after the end of the process, and none of a sink after its destruction. -/
theorem C134_can {ls : List (WSigLabel M)} {s : WSigState M} (h : wsRun deadly .start ls = some s) (l : WSigLabel M) :
    (wsRun deadly .start (ls ++ [l])).isSome ↔ wsPossible deadly ls l := by
  have hi := wsInv_run ls h
  rw [wsRun_snoc, h, Option.bind_some]
  unfold wsStep wsPossible
  have hk : s.killed.isSome ↔ ∃ g, EndedBy deadly ls g := by
    rw [Option.isSome_iff_exists]
    exact exists_congr hi.killed
  by_cases he : ∃ g, EndedBy deadly ls g
  · rw [if_pos (hk.2 he)]
    simp only [Option.isSome_none, Bool.false_eq_true, false_iff]
    rintro ⟨h1, -⟩
    exact he.elim h1
  · rw [if_neg (fun hh => he (hk.1 hh))]
    have he' : ∀ g, ¬ EndedBy deadly ls g := fun g hg => he ⟨g, hg⟩
    have ha : ∀ k, (s.sink k).alive = true ↔ ¬ SinkGone k ls := by
      intro k
      rw [← (hi.sink k).alive]
      cases (s.sink k).alive <;> simp
    have hif : ∀ (b : Bool) (x : Option (WSigState M)), x.isSome → ((if b then x else none).isSome ↔ b = true) := by
      intro b x hx; cases b <;> simp [hx]
    cases l with
    | put k m =>
      simp only [sinkOf]
      rw [hif _ _ rfl, ha]
      tauto
    | flush k o =>
      simp only [sinkOf]
      rw [hif _ _ rfl, ha]
      tauto
    | destroy k o o' =>
      simp only [sinkOf]
      rw [hif, ha]
      · tauto
      · split
        · rfl
        · split
          · rfl
          · split <;> rfl

theorem fileHas_all {k : Nat} {ls : List (WSigLabel M)} {s : WSigState M} (h : wsRun deadly .start ls = some s)
    (hg : SinkGone k ls) (hn : ¬ FileFailed k ls) : (s.sink k).file = entriesFor k ls := by
  have hi := wsInv_run ls h
  have hb := (hi.sink k).buf hn
  -- nothing happens to a sink after its destruction
  obtain ⟨o, o', hm⟩ := hg
  obtain ⟨a, b, rfl⟩ := List.append_of_mem hm
  suffices hq : ∀ b : List (WSigLabel M), ∀ s, wsRun deadly .start (a ++ .destroy k o o' :: b) = some s →
      (s.sink k).buf = [] ∧ (s.sink k).alive = false by
    rw [← hb, (hq b s h).1, List.append_nil]
  intro b
  induction b using List.reverseRecOn with
  | nil =>
    intro s h
    rw [wsRun_snoc] at h
    obtain ⟨s1, -, h2⟩ := Option.bind_eq_some_iff.1 h
    have ht : ∀ K : WSink M, (K.transfer deadly o).1.buf = [] := by
      intro K
      unfold WSink.transfer
      split
      · rfl
      · split <;> rfl
    unfold wsStep at h2
    split at h2
    · simp at h2
    simp only at h2
    split at h2
    · split at h2
      · simp only [Option.some.injEq] at h2
        subst h2; simp [ht]
      · split at h2
        · simp only [Option.some.injEq] at h2
          subst h2; simp [ht]
        · split at h2 <;>
          · simp only [Option.some.injEq] at h2
            subst h2; simp [ht]
    · simp at h2
  | append_singleton b l ih =>
    intro s h
    rw [← List.cons_append, ← List.append_assoc, wsRun_snoc] at h
    obtain ⟨s1, h1, h2⟩ := Option.bind_eq_some_iff.1 h
    obtain ⟨h3, h4⟩ := ih s1 h1
    have hne : sinkOf l ≠ k := by
      intro e
      have h5 := (C134_can h1 l).1 (by rw [wsRun_snoc, h1, Option.bind_some, h2]; rfl)
      exact h5.2 (by rw [e]; exact ⟨o, o', by simp⟩)
    have hsame : s.sink k = s1.sink k := by
      unfold wsStep at h2
      split at h2
      · simp at h2
      cases l with
      | put j m =>
        simp only at h2
        split at h2
        · simp only [Option.some.injEq] at h2
          subst h2; exact Function.update_of_ne (fun e => hne e.symm) _ _
        · simp at h2
      | flush j x =>
        simp only at h2
        split at h2
        · simp only [Option.some.injEq] at h2
          subst h2; exact Function.update_of_ne (fun e => hne e.symm) _ _
        · simp at h2
      | destroy j x y =>
        simp only at h2
        split at h2
        · split at h2
          · simp only [Option.some.injEq] at h2
            subst h2; exact Function.update_of_ne (fun e => hne e.symm) _ _
          · split at h2
            · simp only [Option.some.injEq] at h2
              subst h2; exact Function.update_of_ne (fun e => hne e.symm) _ _
            · split at h2 <;>
              · simp only [Option.some.injEq] at h2
                subst h2; exact Function.update_of_ne (fun e => hne e.symm) _ _
        · simp at h2
    rw [hsame]
    exact ⟨h3, h4⟩

/-- C134, in a program that ignores the signals of write errors (or has none): they do not end the process, and sinks that are destroyed have all their
entries in their files unless the errors were their own. Missing: signals that end the process, C134_negation. -/
theorem C134_statement_partial {ls : List (WSigLabel M)} {s : WSigState M} (h : wsRun deadly .start ls = some s)
    (hd : ∀ g, deadly g = true → ∀ l ∈ ls, (∀ k, fileOut k l ≠ some (.fail (some g))) ∧ ∀ k o, l ≠ .destroy k o (.fail (some g))) :
    ErrorsContained ls s := by
  refine ⟨?_, fun k hg hn => fileHas_all h hg hn⟩
  cases hk : s.killed with
  | none => rfl
  | some g =>
    exfalso
    obtain ⟨a, l, rfl, hx⟩ := ((wsInv_run ls h).killed g).1 hk
    rcases hx with ⟨k, o, h1, ⟨rfl, h2⟩, -⟩ | ⟨k, o, o', rfl, -, ⟨rfl, h2⟩, -⟩
    · exact (hd g h2 l (by simp)).1 k h1
    · exact (hd g h2 _ (by simp)).2 k o rfl

/-- C134: also when a signal ends the process, what came before the last good transfer of a sink is in its file, and every sink that was destroyed
without errors of its own has all its entries there. -/
theorem C134_kept {ls : List (WSigLabel M)} {s : WSigState M} (h : wsRun deadly .start ls = some s) {k : Nat} (hg : SinkGone k ls)
    (hn : ¬ FileFailed k ls) : (s.sink k).file = entriesFor k ls := fileHas_all h hg hn

/-- C134: std::cerr ends the process at most once: after a failed exit message the next ones are not attempted. -/
theorem C134_once {ls : List (WSigLabel M)} {s' : WSigState M} {k : Nat} {o o' : WOut}
    (hc : CerrFailed deadly ls) (hf : ∀ g, ¬ KillsByFile deadly ls (.destroy k o o') g)
    (h' : wsRun deadly .start (ls ++ [.destroy k o o']) = some s') : s'.killed = none := by
  cases hk : s'.killed with
  | none => rfl
  | some g =>
    exfalso
    have h1 := ((wsInv_run _ h').killed g).1 hk
    rw [endedBy_snoc] at h1
    rcases h1 with h1 | ⟨_, _, _, _, _, _, h2⟩
    · exact hf g h1
    · exact h2 hc

/-! ### Where the property fails -/

/-- SIGPIPE and SIGXFSZ, as they are unless the program changes them. -/
def writeSignals (g : Nat) : Bool := g == 13 || g == 25

/-- Two sinks with an entry each; the first one is destroyed after the reader of the standard error stream has gone. -/
def brokenPipe : List (WSigLabel Nat) := [.put 0 7, .put 1 8, .destroy 0 .ok (.fail (some 13))]

/-- Two sinks with an entry each; the file of the first one is at the limit. -/
def fileLimit : List (WSigLabel Nat) := [.put 0 7, .put 1 8, .flush 0 (.fail (some 25))]

/-- C134 fails: the exit message of the first sink, written to a broken pipe, ends the process, and the entry that waits in the second one is not
in its file, nor will it ever be. -/
theorem C134_negation : ∃ s, wsRun writeSignals .start brokenPipe = some s ∧ s.killed = some 13 ∧ entriesFor 1 brokenPipe = [8] ∧
    (s.sink 1).file = [] ∧ ¬ FileFailed 1 brokenPipe ∧ ¬ ErrorsContained brokenPipe s ∧
    ∀ l, wsRun writeSignals .start (brokenPipe ++ [l]) = none := by
  obtain ⟨s, h, h1⟩ := (Option.map_eq_some_iff (f := fun s : WSigState Nat => (s.killed, (s.sink 1).file)) (b := (some 13, []))
    (x := wsRun writeSignals .start brokenPipe)).1 (by decide +kernel)
  have hk : s.killed = some 13 := congrArg Prod.fst h1
  have hf : (s.sink 1).file = [] := congrArg Prod.snd h1
  refine ⟨s, h, hk, rfl, hf, ?_, ?_, ?_⟩
  · rintro ⟨l, hl, g, hg⟩
    simp only [brokenPipe, List.mem_cons, List.not_mem_nil, or_false] at hl
    rcases hl with rfl | rfl | rfl <;> simp [fileOut] at hg
  · rintro ⟨h2, -⟩; rw [hk] at h2; simp at h2
  · intro l
    rw [wsRun_snoc, h, Option.bind_some]
    unfold wsStep
    rw [if_pos (by rw [hk]; rfl)]

/-- C134 fails: a sink whose file has reached the limit of the size of files ends the process, and the entry that waits in another sink is lost. -/
theorem C134_limit_negation : ∃ s, wsRun writeSignals .start fileLimit = some s ∧ s.killed = some 25 ∧ entriesFor 1 fileLimit = [8] ∧
    (s.sink 1).file = [] ∧ ¬ FileFailed 1 fileLimit ∧ ¬ ErrorsContained fileLimit s ∧
    ∀ l, wsRun writeSignals .start (fileLimit ++ [l]) = none := by
  obtain ⟨s, h, h1⟩ := (Option.map_eq_some_iff (f := fun s : WSigState Nat => (s.killed, (s.sink 1).file)) (b := (some 25, []))
    (x := wsRun writeSignals .start fileLimit)).1 (by decide +kernel)
  have hk : s.killed = some 25 := congrArg Prod.fst h1
  have hf : (s.sink 1).file = [] := congrArg Prod.snd h1
  refine ⟨s, h, hk, rfl, hf, ?_, ?_, ?_⟩
  · rintro ⟨l, hl, g, hg⟩
    simp only [fileLimit, List.mem_cons, List.not_mem_nil, or_false] at hl
    rcases hl with rfl | rfl | rfl <;> simp [fileOut] at hg
  · rintro ⟨h2, -⟩; rw [hk] at h2; simp at h2
  · intro l
    rw [wsRun_snoc, h, Option.bind_some]
    unfold wsStep
    rw [if_pos (by rw [hk]; rfl)]

/-! ### Examples -/

/-- C134_exact, C134_can, C134_statement_partial, C134_kept: a program that ignores the signals; errors of one sink and of the standard error stream. -/
example : (wsRun (fun _ => false) .start ([.put 0 1, .put 1 2, .flush 0 (.fail (some 25)), .put 0 3, .destroy 0 .ok (.fail (some 13)), .put 1 4,
      .destroy 1 .ok .ok] : List (WSigLabel Nat))).map (fun s => (s.killed, (s.sink 0).file, (s.sink 1).file, s.cerrBad)) =
    some (none, [], [2, 4], true) := by decide +kernel

/-- C134_once: an error of the standard error stream that no signal announces, then one that a signal would. -/
example : CerrFailed writeSignals ([.destroy 0 .ok (.fail none)] : List (WSigLabel Nat)) ∧
    (∀ g, ¬ KillsByFile writeSignals [.destroy 0 .ok (.fail none)] (.destroy 1 .ok (.fail (some 13)) : WSigLabel Nat) g) ∧
    (wsRun writeSignals .start ([.destroy 0 .ok (.fail none), .destroy 1 .ok (.fail (some 13))] : List (WSigLabel Nat))).isSome := by
  refine ⟨⟨[], [], 0, .ok, none, rfl, ?_⟩, ?_, by decide +kernel⟩
  · rintro g ⟨k, o, h, ⟨rfl, -⟩, -⟩
    simp [fileOut] at h
  · rintro g ⟨k, o, h, ⟨rfl, -⟩, -⟩
    simp [fileOut] at h

end G3.Props
