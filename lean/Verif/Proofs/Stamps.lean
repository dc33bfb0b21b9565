import Verif.Spec.Stamps
/- Invariants of Model/Stamps. -/
namespace G3
open G3.Spec

/-! ### Schedules -/

theorem stRun_snoc (s : StState) (ls : List StLabel) (l : StLabel) : stRun s (ls ++ [l]) = (stRun s ls).bind (stStep · l) := by
  induction ls generalizing s with
  | nil =>
    change (stStep s l).bind (stRun · []) = stStep s l
    cases stStep s l <;> rfl
  | cons a ls ih =>
    change (stStep s a).bind (stRun · (ls ++ [l])) = ((stStep s a).bind (stRun · ls)).bind (stStep · l)
    cases stStep s a with
    | none => rfl
    | some m => exact ih m

theorem stStep_some {s v : StState} {l : StLabel} (h : stStep s l = some v) :
    s.over = false ∧ ∃ u, stAct s l = some u ∧ v = { u with n := s.n + 1 } := by
  unfold stStep at h
  cases ho : s.over with
  | true => rw [if_pos ho] at h; cases h
  | false =>
    rw [if_neg (by simp [ho])] at h
    refine ⟨rfl, ?_⟩
    cases hu : stAct s l with
    | none => rw [hu] at h; cases h
    | some u => rw [hu] at h; exact ⟨u, rfl, (Option.some.inj h).symm⟩

/-- What a step does, case by case. -/
inductive StEff (s : StState) : StLabel → StState → Prop
  | pass (d : Nat) : StEff s (.pass d) { s with clock := s.clock + d, n := s.n + 1 }
  | adjust (c : Int) : StEff s (.adjust c) { s with clock := c, n := s.n + 1 }
  | setHook : StEff s .setHook { s with hook := true, n := s.n + 1 }
  | initAgain : s.active = false → s.saved = true → StEff s .init { s with active := true, hook := false, n := s.n + 1 }
  | initFirst : s.active = false → s.saved = false → StEff s .init
      { s with active := true, hook := false, saved := true, kept := none, out := s.out ++ (s.kept.map fun e => (e, s.n)).toList, n := s.n + 1 }
  | shut : StEff s .shut { s with active := false, n := s.n + 1 }
  | begin (t : Nat) : canBegin (s.stack t) = true → StEff s (.begin t) { s with stack := setStack s.stack t (.args s.n :: s.stack t), n := s.n + 1 }
  | make (t b : Nat) (r : List StFrame) : s.stack t = .args b :: r →
      StEff s (.make t false) { s with stack := setStack s.stack t (.ready ⟨t, s.clock, false, b, s.n⟩ :: r), n := s.n + 1 }
  | makeFatal (t b : Nat) (r : List StFrame) : s.stack t = .args b :: r → s.saved = true →
      StEff s (.make t true) { s with stack := setStack s.stack t (.fatal ⟨t, s.clock, true, b, s.n⟩ s.hook :: r), hook := false, n := s.n + 1 }
  | push (t : Nat) (e : StEntry) (r : List StFrame) : s.stack t = .ready e :: r → s.active = true →
      StEff s (.push t) { s with stack := setStack s.stack t r, out := s.out ++ [(e, s.n)], n := s.n + 1 }
  | drop (t : Nat) (e : StEntry) (r : List StFrame) : s.stack t = .ready e :: r → s.active = false → s.first = true →
      StEff s (.push t) { s with stack := setStack s.stack t r, n := s.n + 1 }
  | keep (t : Nat) (e : StEntry) (r : List StFrame) : s.stack t = .ready e :: r → s.active = false → s.first = false →
      StEff s (.push t) { s with stack := setStack s.stack t r, first := true, kept := some e, n := s.n + 1 }
  | pushFatal (t : Nat) (e : StEntry) (b : Bool) (r : List StFrame) : s.stack t = .fatal e b :: r → s.active = true →
      StEff s (.pushFatal t) { s with stack := setStack s.stack t [.asleep], out := s.out ++ [(e, s.n)], n := s.n + 1 }
  | crash (t : Nat) (e : StEntry) (b : Bool) (r : List StFrame) : s.stack t = .fatal e b :: r → s.active = false →
      StEff s (.pushFatal t) { s with over := true, n := s.n + 1 }

theorem stEff_of {s v : StState} {l : StLabel} (h : stStep s l = some v) : StEff s l v := by
  obtain ⟨_, u, hu, rfl⟩ := stStep_some h
  cases l with
  | pass d => cases hu; exact .pass d
  | adjust c => cases hu; exact .adjust c
  | setHook => cases hu; exact .setHook
  | shut => cases hu; exact .shut
  | init =>
    simp only [stAct] at hu
    cases ha : s.active with
    | true => rw [if_pos ha] at hu; cases hu
    | false =>
      rw [if_neg (by simp [ha])] at hu
      rw [← Option.some.inj hu]
      unfold stInit
      by_cases hs : s.saved = true
      · rw [if_pos hs]; exact .initAgain ha hs
      · rw [if_neg hs]; exact .initFirst ha (by simpa using hs)
  | begin t =>
    simp only [stAct] at hu
    cases hc : canBegin (s.stack t) with
    | true => rw [if_pos hc] at hu; rw [← Option.some.inj hu]; exact .begin t hc
    | false => rw [if_neg (by simp [hc])] at hu; cases hu
  | make t f =>
    simp only [stAct] at hu
    split at hu
    · rename_i b r hst
      unfold stMake at hu
      cases f with
      | false =>
        simp only [Bool.false_eq_true, if_false] at hu
        rw [← Option.some.inj hu]; exact .make t b r hst
      | true =>
        simp only [if_true] at hu
        cases hs : s.saved with
        | true => rw [if_pos hs] at hu; rw [← Option.some.inj hu]; exact .makeFatal t b r hst hs
        | false => rw [if_neg (by simp [hs])] at hu; cases hu
    · cases hu
  | push t =>
    simp only [stAct] at hu
    split at hu
    · rename_i e r hst
      rw [← Option.some.inj hu]
      unfold stPush
      by_cases ha : s.active = true
      · rw [if_pos ha]; exact .push t e r hst ha
      · rw [if_neg ha]
        by_cases hf : s.first = true
        · rw [if_pos hf]; exact .drop t e r hst (by simpa using ha) hf
        · rw [if_neg hf]; exact .keep t e r hst (by simpa using ha) (by simpa using hf)
    · cases hu
  | pushFatal t =>
    simp only [stAct] at hu
    split at hu
    · rename_i e b r hst
      cases ha : s.active with
      | true => rw [if_pos ha] at hu; rw [← Option.some.inj hu]; exact .pushFatal t e b r hst ha
      | false => rw [if_neg (by simp [ha])] at hu; rw [← Option.some.inj hu]; exact .crash t e b r hst ha
    · cases hu

/-- Induction over schedules. -/
theorem st_induction {c : Int} {P : List StLabel → StState → Prop} (h0 : P [] (StState.start c))
    (hs : ∀ ls l s v, stRun (StState.start c) ls = some s → P ls s → StEff s l v → s.over = false → P (ls ++ [l]) v) :
    ∀ (ls : List StLabel) (s : StState), stRun (StState.start c) ls = some s → P ls s := by
  intro ls
  induction h : ls.length generalizing ls with
  | zero =>
    intro s hr
    have : ls = [] := List.length_eq_zero_iff.1 h
    subst this
    rw [← Option.some.inj hr]; exact h0
  | succ k ih =>
    intro s hr
    have hne : ls ≠ [] := by intro e; rw [e] at h; cases h
    have hsplit := List.dropLast_concat_getLast hne
    rw [← hsplit] at hr ⊢
    rw [stRun_snoc] at hr
    obtain ⟨m, hm, hl⟩ := Option.bind_eq_some_iff.1 hr
    exact hs _ _ m s hm (ih _ (by rw [List.length_dropLast, h]; rfl) m hm) (stEff_of hl) (stStep_some hl).1

/-! ### Places in a schedule -/

theorem at_lt {ls : List StLabel} {k : Nat} {l : StLabel} (h : At ls k l) : k < ls.length := by
  unfold At at h
  exact (List.getElem?_eq_some_iff.1 h).1

theorem at_snoc {ls : List StLabel} {a : StLabel} {k : Nat} {l : StLabel} :
    At (ls ++ [a]) k l ↔ At ls k l ∨ (k = ls.length ∧ l = a) := by
  unfold At
  rcases Nat.lt_trichotomy k ls.length with h | h | h
  · rw [List.getElem?_append_left h]
    exact ⟨.inl, fun x => x.elim id (fun y => absurd y.1 (by omega))⟩
  · subst h
    rw [List.getElem?_append_right (Nat.le_refl _), List.getElem?_eq_none (Nat.le_refl _)]
    simp [eq_comm]
  · rw [List.getElem?_eq_none (by simp; omega), List.getElem?_eq_none (by omega)]
    simp; omega

theorem at_mono {ls : List StLabel} {a : StLabel} {k : Nat} {l : StLabel} (h : At ls k l) : At (ls ++ [a]) k l := at_snoc.2 (.inl h)

theorem at_last (ls : List StLabel) (a : StLabel) : At (ls ++ [a]) ls.length a := at_snoc.2 (.inr ⟨rfl, rfl⟩)

theorem at_old {ls : List StLabel} {a : StLabel} {k : Nat} {l : StLabel} (h : At (ls ++ [a]) k l) (hk : k < ls.length) : At ls k l :=
  (at_snoc.1 h).elim id (fun x => absurd x.1 (by omega))

theorem activeAt_mono {ls : List StLabel} {a : StLabel} {h : Nat} (hh : h ≤ ls.length) : ActiveAt (ls ++ [a]) h ↔ ActiveAt ls h := by
  constructor
  · rintro ⟨k, hk, h1, h2⟩
    exact ⟨k, hk, at_old h1 (by omega), fun j h3 h4 h5 => h2 j h3 h4 (at_mono h5)⟩
  · rintro ⟨k, hk, h1, h2⟩
    exact ⟨k, hk, at_mono h1, fun j h3 h4 h5 => h2 j h3 h4 (at_old h5 (by omega))⟩

theorem activeAt_snoc {ls : List StLabel} {a : StLabel} :
    ActiveAt (ls ++ [a]) (ls.length + 1) ↔ a = .init ∨ (a ≠ .shut ∧ ActiveAt ls ls.length) := by
  constructor
  · rintro ⟨k, hk, h1, h2⟩
    by_cases he : k = ls.length
    · exact .inl ((at_snoc.1 h1).elim (fun x => absurd (at_lt x) (by omega)) (fun x => x.2.symm))
    · refine .inr ⟨fun e => h2 ls.length (by omega) (by omega) (e ▸ at_last ls a), k, by omega, at_old h1 (by omega), ?_⟩
      exact fun j h3 h4 h5 => h2 j h3 (by omega) (at_mono h5)
  · rintro (rfl | ⟨hne, k, hk, h1, h2⟩)
    · exact ⟨ls.length, by omega, at_last _ _, fun j h3 h4 => absurd h3 (by omega)⟩
    · refine ⟨k, by omega, at_mono h1, fun j h3 h4 h5 => ?_⟩
      rcases at_snoc.1 h5 with h6 | ⟨_, h6⟩
      · exact h2 j h3 (at_lt h6) h6
      · exact hne h6.symm

theorem firstAt_mono {ls : List StLabel} {a : StLabel} {h : Nat} {p : StLabel → Prop} (hf : FirstAt ls h p) : FirstAt (ls ++ [a]) h p := by
  obtain ⟨⟨l, h1, h2⟩, h3⟩ := hf
  have := at_lt h1
  exact ⟨⟨l, at_mono h1, h2⟩, fun k m hk hm => h3 k m hk (at_old hm (by omega))⟩

theorem firstAt_last {ls : List StLabel} {a : StLabel} {p : StLabel → Prop} (ha : p a) (hn : ∀ k l, At ls k l → ¬ p l) :
    FirstAt (ls ++ [a]) ls.length p :=
  ⟨⟨a, at_last ls a, ha⟩, fun k l hk hl => hn k l (at_old hl hk)⟩

theorem clockAfter_append (c : Int) (a b : List StLabel) : clockAfter c (a ++ b) = clockAfter (clockAfter c a) b := by
  induction a generalizing c with
  | nil => rfl
  | cons l a ih => cases l <;> exact ih _

theorem clockAfter_mono (c : Int) (ls : List StLabel) (h : Steady ls) : c ≤ clockAfter c ls := by
  induction ls generalizing c with
  | nil => exact Int.le_refl _
  | cons l ls ih =>
    have ht : Steady ls := fun x hx => h x (List.mem_cons_of_mem _ hx)
    cases l with
    | adjust x => exact absurd (List.mem_cons_self ..) (h x)
    | pass d =>
      change c ≤ clockAfter (c + (d : Int)) ls
      have := ih (c + (d : Int)) ht
      omega
    | _ => exact ih c ht

theorem clockAfter_take (c : Int) (ls : List StLabel) (h : Steady ls) {i j : Nat} (hij : i ≤ j) :
    clockAfter c (ls.take i) ≤ clockAfter c (ls.take j) := by
  have e : ls.take j = ls.take i ++ (ls.take j).drop i := by
    have h1 := List.take_append_drop i (ls.take j)
    rw [List.take_take, Nat.min_eq_left hij] at h1
    exact h1.symm
  rw [e, clockAfter_append]
  refine clockAfter_mono _ _ fun x hx => h x (List.mem_of_mem_take (List.mem_of_mem_drop hx))

theorem fromStatement_mono {c : Int} {ls : List StLabel} {a : StLabel} {e : StEntry} (h : FromStatement c ls e) : FromStatement c (ls ++ [a]) e := by
  obtain ⟨h1, h2, h3, h4⟩ := h
  refine ⟨at_mono h1, at_mono h2, h3, ?_⟩
  rw [h4, List.take_append_of_le_length (Nat.le_of_lt (at_lt h2))]

theorem handedIn_mono {ls : List StLabel} {a : StLabel} {e : StEntry} {h : Nat} (hh : HandedIn ls e h) : HandedIn (ls ++ [a]) e h := by
  obtain ⟨h0, h1 | h1 | h1⟩ := hh
  · exact ⟨h0, .inl ⟨h1.1, at_mono h1.2.1, (activeAt_mono (Nat.le_of_lt (at_lt h1.2.1))).2 h1.2.2⟩⟩
  · exact ⟨h0, .inr (.inl ⟨h1.1, at_mono h1.2.1, (activeAt_mono (Nat.le_of_lt (at_lt h1.2.1))).2 h1.2.2⟩)⟩
  · obtain ⟨h1, h2, k, h3, h4, h5, h6⟩ := h1
    exact ⟨h0, .inr (.inr ⟨h1, firstAt_mono h2, k, h3, h4, firstAt_mono h5, at_mono h6⟩)⟩

/-! ### The state in terms of the schedule -/

/-- Counters, clock, flags. -/
structure StFlags (c : Int) (ls : List StLabel) (s : StState) : Prop where
  len : s.n = ls.length
  clock : s.clock = clockAfter c ls
  act : s.active = true ↔ ActiveAt ls ls.length
  saved : s.saved = true ↔ ∃ k, At ls k .init
  first : s.saved = false → (s.first = true ↔ ∃ k t, At ls k (.push t))
  inactive : s.saved = false → s.active = false

theorem stFlags (c : Int) (ls : List StLabel) (s : StState) (h : stRun (StState.start c) ls = some s) : StFlags c ls s := by
  refine st_induction (P := StFlags c) ?_ ?_ ls s h
  · refine ⟨rfl, rfl, ?_, ?_, ?_, fun _ => rfl⟩
    · exact ⟨fun h => (by cases h), fun ⟨k, hk, _⟩ => absurd hk (by simp)⟩
    · exact ⟨fun h => (by cases h), fun ⟨k, hk⟩ => absurd (at_lt hk) (by simp)⟩
    · exact fun _ => ⟨fun h => (by cases h), fun ⟨k, t, hk⟩ => absurd (at_lt hk) (by simp)⟩
  · intro ls l s v _ ih he _
    obtain ⟨i1, i2, i3, i4, i5, i6⟩ := ih
    have hl : ∀ k : Nat, k = ls.length → (ls ++ [l]).length = k + 1 := fun k hk => by simp [hk]
    have hlen : (ls ++ [l]).length = ls.length + 1 := by simp
    have hck : clockAfter c (ls ++ [l]) = clockAfter s.clock [l] := by rw [clockAfter_append, i2]
    have hact : l ≠ .init → l ≠ .shut → (s.active = true ↔ ActiveAt (ls ++ [l]) (ls ++ [l]).length) := by
      intro h1 h2
      rw [hlen, activeAt_snoc, i3]
      exact ⟨fun h => .inr ⟨h2, h⟩, fun h => h.elim (fun e => absurd e h1) (·.2)⟩
    have hsav : l ≠ .init → (s.saved = true ↔ ∃ k, At (ls ++ [l]) k .init) := by
      intro h1
      rw [i4]
      exact ⟨fun ⟨k, hk⟩ => ⟨k, at_mono hk⟩, fun ⟨k, hk⟩ => (at_snoc.1 hk).elim (fun x => ⟨k, x⟩) (fun x => absurd x.2.symm h1)⟩
    have hfst : (∀ t, l ≠ .push t) → s.saved = false → (s.first = true ↔ ∃ k t, At (ls ++ [l]) k (.push t)) := by
      intro h1 h2
      rw [i5 h2]
      exact ⟨fun ⟨k, t, hk⟩ => ⟨k, t, at_mono hk⟩,
        fun ⟨k, t, hk⟩ => (at_snoc.1 hk).elim (fun x => ⟨k, t, x⟩) (fun x => absurd x.2.symm (h1 t))⟩
    cases he with
    | initAgain ha hs =>
      refine ⟨by rw [hlen, ← i1], by rw [hck]; rfl, ?_, ?_, ?_, ?_⟩
      · exact ⟨fun _ => by rw [hlen]; exact activeAt_snoc.2 (.inl rfl), fun _ => rfl⟩
      · exact ⟨fun _ => ⟨ls.length, at_last _ _⟩, fun _ => hs⟩
      · intro h; rw [show s.saved = false from h] at hs; cases hs
      · intro h; rw [show s.saved = false from h] at hs; cases hs
    | initFirst ha hs =>
      refine ⟨by rw [hlen, ← i1], by rw [hck]; rfl, ?_, ?_, ?_, ?_⟩
      · exact ⟨fun _ => by rw [hlen]; exact activeAt_snoc.2 (.inl rfl), fun _ => rfl⟩
      · exact ⟨fun _ => ⟨ls.length, at_last _ _⟩, fun _ => rfl⟩
      · intro h; cases h
      · intro h; cases h
    | shut =>
      refine ⟨by rw [hlen, ← i1], by rw [hck]; rfl, ?_, hsav (by simp), hfst (by simp), fun _ => rfl⟩
      refine ⟨fun h => (by cases h), fun h => ?_⟩
      rw [hlen, activeAt_snoc] at h
      rcases h with h | ⟨h, _⟩
      · cases h
      · exact absurd rfl h
    | keep t e r hst ha hf =>
      refine ⟨by rw [hlen, ← i1], by rw [hck]; rfl, hact (by simp) (by simp), hsav (by simp), ?_, i6⟩
      exact fun _ => ⟨fun _ => ⟨ls.length, t, at_last _ _⟩, fun _ => rfl⟩
    | drop t e r hst ha hf =>
      refine ⟨by rw [hlen, ← i1], by rw [hck]; rfl, hact (by simp) (by simp), hsav (by simp), ?_, i6⟩
      exact fun _ => ⟨fun _ => ⟨ls.length, t, at_last _ _⟩, fun _ => hf⟩
    | push t e r hst ha =>
      refine ⟨by rw [hlen, ← i1], by rw [hck]; rfl, hact (by simp) (by simp), hsav (by simp), ?_, i6⟩
      intro hs
      rw [i6 hs] at ha; cases ha
    | _ => exact ⟨by rw [hlen, ← i1], by rw [hck]; rfl, hact (by simp) (by simp), hsav (by simp), hfst (by simp), i6⟩

/-! ### Frames and messages -/

/-- When a frame was entered. -/
def StFrame.began : StFrame → Nat
  | .args b => b
  | .ready e => e.began
  | .fatal e _ => e.began
  | .asleep => 0

/-- The last step of its thread that changed a frame. -/
def StFrame.mark : StFrame → Nat
  | .args b => b
  | .ready e => e.made
  | .fatal e _ => e.made
  | .asleep => 0

/-- The message of a frame. -/
def StFrame.entry : StFrame → Option StEntry
  | .ready e => some e
  | .fatal e _ => some e
  | _ => none

/-- A frame that may be below others. -/
def StFrame.low : StFrame → Bool
  | .args _ => true
  | .fatal _ h => h
  | _ => false

theorem setStack_same (f : Nat → List StFrame) (t : Nat) (x : List StFrame) : setStack f t x t = x := if_pos rfl
theorem setStack_other (f : Nat → List StFrame) {t u : Nat} (x : List StFrame) (h : u ≠ t) : setStack f t x u = f u := if_neg h

/-- A property of all frames of all threads is kept by changing the stack of one thread if the new one has it. -/
theorem setStack_all {f : Nat → List StFrame} {t : Nat} {x : List StFrame} {P : Nat → StFrame → Prop} (h : ∀ u, ∀ g ∈ f u, P u g)
    (hx : ∀ g ∈ x, P t g) : ∀ u, ∀ g ∈ setStack f t x u, P u g := by
  intro u g hg
  by_cases hu : u = t
  · subst hu; rw [setStack_same] at hg; exact hx g hg
  · rw [setStack_other f x hu] at hg; exact h u g hg

/-- What is known of a frame. -/
def FrameOk (c : Int) (ls : List StLabel) (t : Nat) : StFrame → Prop
  | .args b => At ls b (.begin t)
  | .ready e => e.thread = t ∧ e.fatal = false ∧ FromStatement c ls e
  | .fatal e _ => e.thread = t ∧ e.fatal = true ∧ FromStatement c ls e
  | .asleep => True

theorem frameOk_mono {c : Int} {ls : List StLabel} {a : StLabel} {t : Nat} {f : StFrame} (h : FrameOk c ls t f) : FrameOk c (ls ++ [a]) t f := by
  cases f with
  | args b => exact at_mono h
  | ready e => exact ⟨h.1, h.2.1, fromStatement_mono h.2.2⟩
  | fatal e b => exact ⟨h.1, h.2.1, fromStatement_mono h.2.2⟩
  | asleep => trivial

/-- What is known of the message kept before the first initializeLogging. -/
def KeptOk (c : Int) (ls : List StLabel) (e : StEntry) : Prop :=
  FromStatement c ls e ∧ e.fatal = false ∧ ∃ k, e.made < k ∧ FirstAt ls k IsPush ∧ At ls k (.push e.thread)

theorem keptOk_mono {c : Int} {ls : List StLabel} {a : StLabel} {e : StEntry} (h : KeptOk c ls e) : KeptOk c (ls ++ [a]) e := by
  obtain ⟨h1, h2, k, h3, h4, h5⟩ := h
  exact ⟨fromStatement_mono h1, h2, k, h3, firstAt_mono h4, at_mono h5⟩

/-- Where everything comes from. -/
structure StWhere (c : Int) (ls : List StLabel) (s : StState) : Prop where
  frames : ∀ t, ∀ f ∈ s.stack t, FrameOk c ls t f
  kept : s.saved = false → ∀ e, s.kept = some e → KeptOk c ls e
  out : ∀ p ∈ s.out, FromStatement c ls p.1 ∧ HandedIn ls p.1 p.2

theorem out_snoc {c : Int} {ls : List StLabel} {a : StLabel} {o : List (StEntry × Nat)} {e : StEntry} {k : Nat}
    (h : ∀ p ∈ o, FromStatement c ls p.1 ∧ HandedIn ls p.1 p.2) (he : FromStatement c (ls ++ [a]) e) (hk : HandedIn (ls ++ [a]) e k) :
    ∀ p ∈ o ++ [(e, k)], FromStatement c (ls ++ [a]) p.1 ∧ HandedIn (ls ++ [a]) p.1 p.2 := by
  intro p hp
  rcases List.mem_append.1 hp with hp | hp
  · exact ⟨fromStatement_mono (h p hp).1, handedIn_mono (h p hp).2⟩
  · rw [List.mem_singleton.1 hp]; exact ⟨he, hk⟩

theorem stWhere (c : Int) (ls : List StLabel) (s : StState) (h : stRun (StState.start c) ls = some s) : StWhere c ls s := by
  refine st_induction (P := StWhere c) ?_ ?_ ls s h
  · exact ⟨fun _ f hf => (by cases hf), fun _ e he => (by cases he), fun p hp => (by cases hp)⟩
  · intro ls l s v hr ih he _
    have fl := stFlags c ls s hr
    obtain ⟨i1, i2, i3⟩ := ih
    have j1 : ∀ t, ∀ f ∈ s.stack t, FrameOk c (ls ++ [l]) t f := fun t f hf => frameOk_mono (i1 t f hf)
    have j2 : s.saved = false → ∀ e, s.kept = some e → KeptOk c (ls ++ [l]) e := fun hs e h => keptOk_mono (i2 hs e h)
    have j3 : ∀ p ∈ s.out, FromStatement c (ls ++ [l]) p.1 ∧ HandedIn (ls ++ [l]) p.1 p.2 :=
      fun p hp => ⟨fromStatement_mono (i3 p hp).1, handedIn_mono (i3 p hp).2⟩
    have hactive : s.active = true → ActiveAt (ls ++ [l]) ls.length := fun ha => (activeAt_mono (Nat.le_refl _)).2 (fl.act.1 ha)
    cases he with
    | initFirst ha hs =>
      refine ⟨j1, fun h => (by cases h), ?_⟩
      cases hk : s.kept with
      | none => simpa using j3
      | some e =>
        obtain ⟨k1, k2, k, k3, k4, k5⟩ := i2 hs e hk
        have hno : ∀ j m, At ls j m → ¬ m = .init := by
          intro j m hm e
          subst e
          rw [fl.saved.2 ⟨j, hm⟩] at hs; cases hs
        refine out_snoc i3 (fromStatement_mono k1) ⟨?_, .inr (.inr ⟨k2, ?_, k, ?_, k3, firstAt_mono k4, at_mono k5⟩)⟩
        · rw [fl.len]; exact at_lt k1.2.1
        · rw [fl.len]; exact firstAt_last rfl hno
        · rw [fl.len]; exact at_lt k5
    | begin t hc =>
      refine ⟨setStack_all j1 ?_, j2, j3⟩
      intro g hg
      rcases List.mem_cons.1 hg with rfl | hg
      · change At _ _ _; rw [fl.len]; exact at_last _ _
      · exact j1 t g hg
    | make t b r hst =>
      refine ⟨setStack_all j1 ?_, j2, j3⟩
      intro g hg
      rcases List.mem_cons.1 hg with rfl | hg
      · have hb : At ls b (.begin t) := i1 t (.args b) (by rw [hst]; exact List.mem_cons_self ..)
        refine ⟨rfl, rfl, at_mono hb, ?_, ?_, ?_⟩
        · change At _ s.n _; rw [fl.len]; exact at_last _ _
        · change b < s.n; rw [fl.len]; exact at_lt hb
        · change s.clock = clockAfter c (List.take s.n _)
          rw [fl.len, List.take_left]; exact fl.clock
      · exact j1 t g (by rw [hst]; exact List.mem_cons_of_mem _ hg)
    | makeFatal t b r hst hs =>
      refine ⟨setStack_all j1 ?_, j2, j3⟩
      intro g hg
      rcases List.mem_cons.1 hg with rfl | hg
      · have hb : At ls b (.begin t) := i1 t (.args b) (by rw [hst]; exact List.mem_cons_self ..)
        refine ⟨rfl, rfl, at_mono hb, ?_, ?_, ?_⟩
        · change At _ s.n _; rw [fl.len]; exact at_last _ _
        · change b < s.n; rw [fl.len]; exact at_lt hb
        · change s.clock = clockAfter c (List.take s.n _)
          rw [fl.len, List.take_left]; exact fl.clock
      · exact j1 t g (by rw [hst]; exact List.mem_cons_of_mem _ hg)
    | push t e r hst ha =>
      obtain ⟨f1, f2, f3⟩ : FrameOk c ls t (.ready e) := i1 t _ (by rw [hst]; exact List.mem_cons_self ..)
      refine ⟨setStack_all j1 fun g hg => j1 t g (by rw [hst]; exact List.mem_cons_of_mem _ hg), j2, ?_⟩
      refine out_snoc i3 (fromStatement_mono f3) ⟨?_, .inl ⟨f2, ?_, ?_⟩⟩
      · rw [fl.len]; exact at_lt f3.2.1
      · rw [fl.len, f1]; exact at_last _ _
      · rw [fl.len]; exact hactive ha
    | drop t e r hst ha hf =>
      exact ⟨setStack_all j1 fun g hg => j1 t g (by rw [hst]; exact List.mem_cons_of_mem _ hg), j2, j3⟩
    | keep t e r hst ha hf =>
      obtain ⟨f1, f2, f3⟩ : FrameOk c ls t (.ready e) := i1 t _ (by rw [hst]; exact List.mem_cons_self ..)
      refine ⟨setStack_all j1 fun g hg => j1 t g (by rw [hst]; exact List.mem_cons_of_mem _ hg), ?_, j3⟩
      intro hs x hx
      rw [← Option.some.inj hx]
      refine ⟨fromStatement_mono f3, f2, ls.length, at_lt f3.2.1, firstAt_last ⟨t, rfl⟩ ?_, by rw [f1]; exact at_last _ _⟩
      rintro k m hm ⟨u, rfl⟩
      rw [(fl.first hs).2 ⟨k, u, hm⟩] at hf; cases hf
    | pushFatal t e b r hst ha =>
      obtain ⟨f1, f2, f3⟩ : FrameOk c ls t (.fatal e b) := i1 t _ (by rw [hst]; exact List.mem_cons_self ..)
      refine ⟨setStack_all j1 fun g hg => (by rw [List.mem_singleton.1 hg]; trivial), j2, ?_⟩
      refine out_snoc i3 (fromStatement_mono f3) ⟨?_, .inr (.inl ⟨f2, ?_, ?_⟩)⟩
      · rw [fl.len]; exact at_lt f3.2.1
      · rw [fl.len, f1]; exact at_last _ _
      · rw [fl.len]; exact hactive ha
    | _ => exact ⟨j1, j2, j3⟩

/-! ### Order -/

/-- Two messages of one thread, x handed over before y: x was made first, or y is fatal and x is from its hook. -/
def InOrder (x y : StEntry) : Prop := x.thread = y.thread → x.made < y.made ∨ (y.fatal = true ∧ y.made < x.began)

/-- The order of frames and messages. -/
structure StOrd (s : StState) : Prop where
  low : ∀ t f r, s.stack t = f :: r → ∀ g ∈ r, g.low = true
  nest : ∀ t, (s.stack t).Pairwise fun up lo => lo.mark < up.began
  cross : ∀ t, ∀ f ∈ s.stack t, ∀ e, f.entry = some e → ∀ x, (x ∈ s.out.map Prod.fst ∨ (s.kept = some x ∧ s.saved = false)) → InOrder x e
  ord : (s.out.map Prod.fst).Pairwise InOrder
  steps : (s.out.map Prod.snd).Pairwise (· < ·)
  empty : s.saved = false → s.out = []
  last : ∀ p ∈ s.out, p.1.fatal = true → s.stack p.1.thread = [.asleep]

theorem canBegin_low {f : StFrame} {r : List StFrame} (h : canBegin (f :: r) = true) : f.low = true := by
  cases f with
  | args b => rfl
  | fatal e b => exact h
  | ready e => cases h
  | asleep => cases h

theorem low_thread {f : Nat → List StFrame} {t : Nat} {x : List StFrame} (h : ∀ u g r, f u = g :: r → ∀ k ∈ r, k.low = true)
    (hx : ∀ g r, x = g :: r → ∀ k ∈ r, k.low = true) : ∀ u g r, setStack f t x u = g :: r → ∀ k ∈ r, k.low = true := by
  intro u g r hu
  by_cases he : u = t
  · subst he; rw [setStack_same] at hu; exact hx g r hu
  · rw [setStack_other f x he] at hu; exact h u g r hu

theorem nest_thread {f : Nat → List StFrame} {t : Nat} {x : List StFrame} {R : StFrame → StFrame → Prop} (h : ∀ u, (f u).Pairwise R) (hx : x.Pairwise R) :
    ∀ u, (setStack f t x u).Pairwise R := by
  intro u
  by_cases he : u = t
  · subst he; rw [setStack_same]; exact hx
  · rw [setStack_other f x he]; exact h u

theorem stOrd (c : Int) (ls : List StLabel) (s : StState) (h : stRun (StState.start c) ls = some s) : StOrd s := by
  refine st_induction (P := fun _ s => StOrd s) ?_ ?_ ls s h
  · exact ⟨fun _ _ _ h => (by cases h), fun _ => List.Pairwise.nil, fun _ f hf => (by cases hf), List.Pairwise.nil, List.Pairwise.nil, fun _ => rfl,
      fun p hp => (by cases hp)⟩
  · intro ls l s v hr ih he _
    have fl := stFlags c ls s hr
    have wh := stWhere c ls s hr
    obtain ⟨i1, i2, i3, i4, i5, i6, i7⟩ := ih
    -- bounds
    have bmark : ∀ t, ∀ f ∈ s.stack t, f.mark < s.n ∨ f = .asleep := by
      intro t f hf
      have := wh.frames t f hf
      rw [fl.len]
      cases f with
      | args b => exact .inl (at_lt this)
      | ready e => exact .inl (at_lt this.2.2.2.1)
      | fatal e b => exact .inl (at_lt this.2.2.2.1)
      | asleep => exact .inr rfl
    have bout : ∀ x ∈ s.out.map Prod.fst, x.made < s.n := by
      intro x hx
      obtain ⟨p, hp, rfl⟩ := List.mem_map.1 hx
      rw [fl.len]; exact at_lt (wh.out p hp).1.2.1
    have bkept : s.saved = false → ∀ x, s.kept = some x → x.made < s.n := by
      intro hs x hx
      rw [fl.len]; exact at_lt (wh.kept hs x hx).1.2.1
    have bstep : ∀ k ∈ s.out.map Prod.snd, k < s.n := by
      intro k hk
      obtain ⟨p, hp, rfl⟩ := List.mem_map.1 hk
      rw [fl.len]
      rcases (wh.out p hp).2.2 with h | h | h
      · exact at_lt h.2.1
      · exact at_lt h.2.1
      · exact at_lt h.2.1.1.choose_spec.1
    have hasleep : ∀ {t : Nat} {x : List StFrame}, s.stack t ≠ [.asleep] → ∀ p ∈ s.out, p.1.fatal = true → setStack s.stack t x p.1.thread = [.asleep] := by
      intro t x ht p hp hf
      have := i7 p hp hf
      rw [setStack_other _ _ (fun e : p.1.thread = t => ht (e ▸ this)), this]
    cases he with
    | initFirst ha hs =>
      have he := i6 hs
      refine ⟨i1, i2, ?_, ?_, ?_, fun h => (by cases h), ?_⟩
      · intro t f hf e hfe x hx
        refine i3 t f hf e hfe x ?_
        rcases hx with hx | ⟨hx, _⟩
        · cases hk : s.kept with
          | none => rw [he, hk] at hx; cases hx
          | some y =>
            rw [he, hk] at hx
            simp at hx
            exact .inr ⟨by rw [hx], hs⟩
        · cases hx
      · rw [he]; cases s.kept with
        | none => exact List.Pairwise.nil
        | some y => exact List.pairwise_singleton _ _
      · rw [he]; cases s.kept with
        | none => exact List.Pairwise.nil
        | some y => exact List.pairwise_singleton _ _
      · intro p hp hf
        rw [he] at hp
        cases hk : s.kept with
        | none => rw [hk] at hp; cases hp
        | some y =>
          rw [hk] at hp
          simp at hp
          rw [hp] at hf
          rw [(wh.kept hs y hk).2.1] at hf; cases hf
    | initAgain ha hs => exact ⟨i1, i2, fun t f hf e hfe x hx => i3 t f hf e hfe x (hx.imp_right fun h => ⟨h.1, h.2⟩), i4, i5, fun h => i6 h, i7⟩
    | begin t hc =>
      refine ⟨low_thread i1 ?_, nest_thread i2 ?_, ?_, i4, i5, i6, ?_⟩
      · intro g r hg k hk
        rw [← (List.cons.inj hg).2] at hk
        cases hst : s.stack t with
        | nil => rw [hst] at hk; cases hk
        | cons f r' =>
          rw [hst] at hk hc
          rcases List.mem_cons.1 hk with rfl | hk
          · exact canBegin_low hc
          · exact i1 t f r' hst k hk
      · refine List.pairwise_cons.2 ⟨fun f hf => ?_, i2 t⟩
        rcases bmark t f hf with h | rfl
        · exact h
        · cases hst : s.stack t with
          | nil => rw [hst] at hf; cases hf
          | cons f r' =>
            rw [hst] at hf hc
            rcases List.mem_cons.1 hf with e | hf
            · subst e; cases hc
            · exact absurd (i1 t f r' hst _ hf) (by simp [StFrame.low])
      · intro u f hf e hfe x hx
        by_cases hu : u = t
        · subst hu
          change f ∈ setStack s.stack u _ u at hf
          rw [setStack_same] at hf
          rcases List.mem_cons.1 hf with rfl | hf
          · cases hfe
          · exact i3 u f hf e hfe x hx
        · change f ∈ setStack s.stack t _ u at hf
          rw [setStack_other _ _ hu] at hf
          exact i3 u f hf e hfe x hx
      · exact hasleep (fun e => by rw [e] at hc; cases hc)
    | make t b r hst =>
      refine ⟨low_thread i1 ?_, nest_thread i2 ?_, ?_, i4, i5, i6, ?_⟩
      · intro g r' hg k hk
        rw [← (List.cons.inj hg).2] at hk
        exact i1 t _ r hst k hk
      · have := i2 t
        rw [hst] at this
        obtain ⟨h1, h2⟩ := List.pairwise_cons.1 this
        exact List.pairwise_cons.2 ⟨h1, h2⟩
      · intro u f hf e hfe x hx
        by_cases hu : u = t
        · subst hu
          change f ∈ setStack s.stack u _ u at hf
          rw [setStack_same] at hf
          rcases List.mem_cons.1 hf with rfl | hf
          · rw [← Option.some.inj hfe]
            exact fun _ => .inl (hx.elim (bout x) (fun h => bkept h.2 x h.1))
          · exact i3 u f (by rw [hst]; exact List.mem_cons_of_mem _ hf) e hfe x hx
        · change f ∈ setStack s.stack t _ u at hf
          rw [setStack_other _ _ hu] at hf
          exact i3 u f hf e hfe x hx
      · exact hasleep (fun e => by rw [e] at hst; cases hst)
    | makeFatal t b r hst hs =>
      refine ⟨low_thread i1 ?_, nest_thread i2 ?_, ?_, i4, i5, i6, ?_⟩
      · intro g r' hg k hk
        rw [← (List.cons.inj hg).2] at hk
        exact i1 t _ r hst k hk
      · have := i2 t
        rw [hst] at this
        obtain ⟨h1, h2⟩ := List.pairwise_cons.1 this
        exact List.pairwise_cons.2 ⟨h1, h2⟩
      · intro u f hf e hfe x hx
        by_cases hu : u = t
        · subst hu
          change f ∈ setStack s.stack u _ u at hf
          rw [setStack_same] at hf
          rcases List.mem_cons.1 hf with rfl | hf
          · rw [← Option.some.inj hfe]
            exact fun _ => .inl (hx.elim (bout x) (fun h => bkept h.2 x h.1))
          · exact i3 u f (by rw [hst]; exact List.mem_cons_of_mem _ hf) e hfe x hx
        · change f ∈ setStack s.stack t _ u at hf
          rw [setStack_other _ _ hu] at hf
          exact i3 u f hf e hfe x hx
      · exact hasleep (fun e => by rw [e] at hst; cases hst)
    | push t e r hst ha =>
      have hsv : s.saved = true := by
        cases hs : s.saved with
        | true => rfl
        | false => rw [fl.inactive hs] at ha; cases ha
      have hmem : StFrame.ready e ∈ s.stack t := by rw [hst]; exact List.mem_cons_self ..
      obtain ⟨f1, f2, f3⟩ : FrameOk c ls t (.ready e) := wh.frames t _ hmem
      have hn := List.pairwise_cons.1 (hst ▸ i2 t)
      refine ⟨low_thread i1 ?_, nest_thread i2 hn.2, ?_, ?_, ?_, fun h => (by rw [show s.saved = false from h] at hsv; cases hsv), ?_⟩
      · intro g r' hg k hk
        exact i1 t _ r hst k (by rw [hg]; exact List.mem_cons_of_mem _ hk)
      · intro u f hf y hfe x hx
        have hx' : x ∈ s.out.map Prod.fst ∨ x = e := by
          rcases hx with hx | ⟨_, hx⟩
          · change x ∈ (s.out ++ [(e, s.n)]).map Prod.fst at hx
            rw [List.map_append] at hx
            exact (List.mem_append.1 hx).imp_right fun h => by simpa using h
          · rw [show s.saved = false from hx] at hsv; cases hsv
        by_cases hu : u = t
        · subst hu
          change f ∈ setStack s.stack u _ u at hf
          rw [setStack_same] at hf
          have hf' : f ∈ s.stack u := by rw [hst]; exact List.mem_cons_of_mem _ hf
          rcases hx' with hx | rfl
          · exact i3 u f hf' y hfe x (.inl hx)
          · intro _
            have hlow := i1 u _ r hst f hf
            have hm := hn.1 f hf
            cases f with
            | fatal z b =>
              rw [← Option.some.inj hfe]
              have := wh.frames u _ hf'
              exact .inr ⟨this.2.1, hm⟩
            | ready z => cases hlow
            | _ => cases hfe
        · change f ∈ setStack s.stack t _ u at hf
          rw [setStack_other _ _ hu] at hf
          rcases hx' with hx | rfl
          · exact i3 u f hf y hfe x (.inl hx)
          · intro hth
            exfalso
            have := wh.frames u f hf
            cases f with
            | ready z => rw [← Option.some.inj hfe] at hth; exact hu (by rw [← this.1, ← hth, f1])
            | fatal z b => rw [← Option.some.inj hfe] at hth; exact hu (by rw [← this.1, ← hth, f1])
            | _ => cases hfe
      · rw [List.map_append]
        refine List.pairwise_append.2 ⟨i4, List.pairwise_singleton _ _, ?_⟩
        intro x hx y hy
        have : y = e := by simpa using hy
        rw [this]
        exact i3 t _ hmem e rfl x (.inl hx)
      · rw [List.map_append]
        refine List.pairwise_append.2 ⟨i5, List.pairwise_singleton _ _, ?_⟩
        intro x hx y hy
        have : y = s.n := by simpa using hy
        rw [this]; exact bstep x hx
      · intro p hp hf
        rcases List.mem_append.1 hp with hp | hp
        · exact hasleep (fun e => by rw [e] at hst; cases hst) p hp hf
        · rw [List.mem_singleton.1 hp] at hf
          rw [f2] at hf; cases hf
    | drop t e r hst ha hf =>
      have hn := List.pairwise_cons.1 (hst ▸ i2 t)
      refine ⟨low_thread i1 ?_, nest_thread i2 hn.2, ?_, i4, i5, i6, ?_⟩
      · intro g r' hg k hk
        exact i1 t _ r hst k (by rw [hg]; exact List.mem_cons_of_mem _ hk)
      · refine setStack_all (P := fun u f => ∀ e, f.entry = some e → ∀ x, _ → InOrder x e) i3 ?_
        exact fun f hf => i3 t f (by rw [hst]; exact List.mem_cons_of_mem _ hf)
      · exact hasleep (fun e => by rw [e] at hst; cases hst)
    | keep t e r hst ha hf =>
      have hmem : StFrame.ready e ∈ s.stack t := by rw [hst]; exact List.mem_cons_self ..
      obtain ⟨f1, f2, f3⟩ : FrameOk c ls t (.ready e) := wh.frames t _ hmem
      have hn := List.pairwise_cons.1 (hst ▸ i2 t)
      refine ⟨low_thread i1 ?_, nest_thread i2 hn.2, ?_, i4, i5, i6, ?_⟩
      · intro g r' hg k hk
        exact i1 t _ r hst k (by rw [hg]; exact List.mem_cons_of_mem _ hk)
      · intro u f hf y hfe x hx
        by_cases hu : u = t
        · subst hu
          change f ∈ setStack s.stack u _ u at hf
          rw [setStack_same] at hf
          have hf' : f ∈ s.stack u := by rw [hst]; exact List.mem_cons_of_mem _ hf
          rcases hx with hx | ⟨hx, hs⟩
          · exact i3 u f hf' y hfe x (.inl hx)
          · rw [← Option.some.inj hx]
            intro _
            have hlow := i1 u _ r hst f hf
            have hm := hn.1 f hf
            cases f with
            | fatal z b =>
              rw [← Option.some.inj hfe]
              have := wh.frames u _ hf'
              exact .inr ⟨this.2.1, hm⟩
            | ready z => cases hlow
            | _ => cases hfe
        · change f ∈ setStack s.stack t _ u at hf
          rw [setStack_other _ _ hu] at hf
          rcases hx with hx | ⟨hx, hs⟩
          · exact i3 u f hf y hfe x (.inl hx)
          · rw [← Option.some.inj hx]
            intro hth
            exfalso
            have := wh.frames u f hf
            cases f with
            | ready z => rw [← Option.some.inj hfe] at hth; exact hu (by rw [← this.1, ← hth, f1])
            | fatal z b => rw [← Option.some.inj hfe] at hth; exact hu (by rw [← this.1, ← hth, f1])
            | _ => cases hfe
      · exact hasleep (fun e => by rw [e] at hst; cases hst)
    | pushFatal t e b r hst ha =>
      have hsv : s.saved = true := by
        cases hs : s.saved with
        | true => rfl
        | false => rw [fl.inactive hs] at ha; cases ha
      have hmem : StFrame.fatal e b ∈ s.stack t := by rw [hst]; exact List.mem_cons_self ..
      obtain ⟨f1, f2, f3⟩ : FrameOk c ls t (.fatal e b) := wh.frames t _ hmem
      refine ⟨low_thread i1 ?_, nest_thread i2 (List.pairwise_singleton _ _), ?_, ?_, ?_, fun h => (by rw [show s.saved = false from h] at hsv; cases hsv), ?_⟩
      · intro g r' hg k hk
        rw [← (List.cons.inj hg).2] at hk; cases hk
      · intro u f hf y hfe x hx
        have hx' : x ∈ s.out.map Prod.fst ∨ x = e := by
          rcases hx with hx | ⟨_, hx⟩
          · change x ∈ (s.out ++ [(e, s.n)]).map Prod.fst at hx
            rw [List.map_append] at hx
            exact (List.mem_append.1 hx).imp_right fun h => by simpa using h
          · rw [show s.saved = false from hx] at hsv; cases hsv
        by_cases hu : u = t
        · subst hu
          change f ∈ setStack s.stack u _ u at hf
          rw [setStack_same] at hf
          rw [List.mem_singleton.1 hf] at hfe; cases hfe
        · change f ∈ setStack s.stack t _ u at hf
          rw [setStack_other _ _ hu] at hf
          rcases hx' with hx | rfl
          · exact i3 u f hf y hfe x (.inl hx)
          · intro hth
            exfalso
            have := wh.frames u f hf
            cases f with
            | ready z => rw [← Option.some.inj hfe] at hth; exact hu (by rw [← this.1, ← hth, f1])
            | fatal z b => rw [← Option.some.inj hfe] at hth; exact hu (by rw [← this.1, ← hth, f1])
            | _ => cases hfe
      · rw [List.map_append]
        refine List.pairwise_append.2 ⟨i4, List.pairwise_singleton _ _, ?_⟩
        intro x hx y hy
        have : y = e := by simpa using hy
        rw [this]
        exact i3 t _ hmem e rfl x (.inl hx)
      · rw [List.map_append]
        refine List.pairwise_append.2 ⟨i5, List.pairwise_singleton _ _, ?_⟩
        intro x hx y hy
        have : y = s.n := by simpa using hy
        rw [this]; exact bstep x hx
      · intro p hp hf
        rcases List.mem_append.1 hp with hp | hp
        · exact hasleep (fun e => by rw [e] at hst; cases hst) p hp hf
        · rw [List.mem_singleton.1 hp]
          change setStack s.stack t [.asleep] e.thread = [.asleep]
          rw [f1, setStack_same]
    | _ => exact ⟨i1, i2, i3, i4, i5, i6, i7⟩

/-! ### What a thread does during a statement -/

theorem stepsOf_old {t : Nat} {ls : List StLabel} {a : StLabel} {i j : Nat} (hj : j ≤ ls.length) : stepsOf t (ls ++ [a]) i j = stepsOf t ls i j := by
  unfold stepsOf
  rw [List.take_append_of_le_length hj]

theorem stepsOf_snoc {t : Nat} {ls : List StLabel} {a : StLabel} {i : Nat} (hi : i ≤ ls.length) :
    stepsOf t (ls ++ [a]) i (ls.length + 1) = stepsOf t ls i ls.length ++ (if stThread a = some t then [a] else []) := by
  unfold stepsOf
  rw [List.take_of_length_le (by simp), List.take_of_length_le (Nat.le_refl _), List.drop_append_of_le_length hi, List.filter_append]
  congr 1
  by_cases h : stThread a = some t
  · rw [if_pos h]; simp [h]
  · rw [if_neg h]; simp [h]

theorem stepsOf_empty {t : Nat} {ls : List StLabel} {i j : Nat} (h : j ≤ i) : stepsOf t ls i j = [] := by
  unfold stepsOf
  rw [List.drop_of_length_le (by simp; omega)]
  rfl

theorem mem_stepsOf {t : Nat} {ls : List StLabel} {i j k : Nat} {l : StLabel} (h : At ls k l) (h1 : i ≤ k) (h2 : k < j) (ht : stThread l = some t) :
    l ∈ stepsOf t ls i j := by
  unfold stepsOf
  refine List.mem_filter.2 ⟨?_, by simp [ht]⟩
  refine List.mem_iff_getElem?.2 ⟨k - i, ?_⟩
  rw [List.getElem?_drop, List.getElem?_take]
  rw [show i + (k - i) = k by omega, if_pos h2]
  exact h

/-- The steps of a thread since its frames were entered. -/
def Segs (ls : List StLabel) (t : Nat) : Nat → List StFrame → Prop
  | j, [] => Complete t (stepsOf t ls 0 j)
  | j, .args b :: r => Complete t (stepsOf t ls (b + 1) j) ∧ b < ls.length ∧ Segs ls t b r
  | j, .ready e :: r => stepsOf t ls (e.made + 1) j = [] ∧ Complete t (stepsOf t ls (e.began + 1) e.made) ∧ e.began < e.made ∧ e.made < ls.length ∧
      Segs ls t e.began r
  | j, .fatal e h :: r => (Complete t (stepsOf t ls (e.made + 1) j) ∧ (h = true ∨ stepsOf t ls (e.made + 1) j = [])) ∧ (h = true ↔ HookAt ls e.made) ∧
      Complete t (stepsOf t ls (e.began + 1) e.made) ∧ e.began < e.made ∧ e.made < ls.length ∧ Segs ls t e.began r
  | j, .asleep :: _ => stepsOf t ls j j = []

theorem hookAt_mono {ls : List StLabel} {a : StLabel} {k : Nat} (hk : k ≤ ls.length) : HookAt (ls ++ [a]) k ↔ HookAt ls k := by
  constructor
  · rintro ⟨j, h1, h2, h3⟩
    exact ⟨j, h1, at_old h2 (by omega), fun i h4 h5 => ⟨fun h => (h3 i h4 h5).1 (at_mono h), fun t h => (h3 i h4 h5).2 t (at_mono h)⟩⟩
  · rintro ⟨j, h1, h2, h3⟩
    exact ⟨j, h1, at_mono h2,
      fun i h4 h5 => ⟨fun h => (h3 i h4 h5).1 (at_old h (by omega)), fun t h => (h3 i h4 h5).2 t (at_old h (by omega))⟩⟩

theorem segs_old {ls : List StLabel} {a : StLabel} {t : Nat} : ∀ {r : List StFrame} {j : Nat}, j ≤ ls.length → Segs ls t j r → Segs (ls ++ [a]) t j r
  | [], j, hj, h => by
    change Complete t _
    rw [stepsOf_old hj]; exact h
  | .args b :: r, j, hj, h => by
    obtain ⟨h1, h2, h3⟩ := h
    exact ⟨by rw [stepsOf_old hj]; exact h1, by simp; omega, segs_old (Nat.le_of_lt h2) h3⟩
  | .ready e :: r, j, hj, h => by
    obtain ⟨h1, h2, h3, h4, h5⟩ := h
    exact ⟨by rw [stepsOf_old hj]; exact h1, by rw [stepsOf_old (Nat.le_of_lt h4)]; exact h2, h3, by simp; omega, segs_old (by omega) h5⟩
  | .fatal e b :: r, j, hj, h => by
    obtain ⟨h1, h2, h3, h4, h5, h6⟩ := h
    exact ⟨by rw [stepsOf_old hj]; exact h1, by rw [hookAt_mono (Nat.le_of_lt h5)]; exact h2, by rw [stepsOf_old (Nat.le_of_lt h5)]; exact h3, h4,
      by simp; omega, segs_old (by omega) h6⟩
  | .asleep :: r, j, hj, h => stepsOf_empty (Nat.le_refl _)

/-- A step of no thread or of another one. -/
theorem segs_other {ls : List StLabel} {a : StLabel} {t : Nat} (ha : stThread a ≠ some t) {r : List StFrame} (h : Segs ls t ls.length r) :
    Segs (ls ++ [a]) t (ls.length + 1) r := by
  have e : ∀ i, i ≤ ls.length → stepsOf t (ls ++ [a]) i (ls.length + 1) = stepsOf t ls i ls.length := by
    intro i hi
    rw [stepsOf_snoc hi, if_neg ha, List.append_nil]
  match r, h with
  | [], h => change Complete t _; rw [e 0 (by omega)]; exact h
  | .args b :: r, h =>
    obtain ⟨h1, h2, h3⟩ := h
    exact ⟨by rw [e _ h2]; exact h1, by simp; omega, segs_old (Nat.le_of_lt h2) h3⟩
  | .ready x :: r, h =>
    obtain ⟨h1, h2, h3, h4, h5⟩ := h
    exact ⟨by rw [e _ h4]; exact h1, by rw [stepsOf_old (Nat.le_of_lt h4)]; exact h2, h3, by simp; omega, segs_old (by omega) h5⟩
  | .fatal x b :: r, h =>
    obtain ⟨h1, h2, h3, h4, h5, h6⟩ := h
    exact ⟨by rw [e _ h5]; exact h1, by rw [hookAt_mono (Nat.le_of_lt h5)]; exact h2, by rw [stepsOf_old (Nat.le_of_lt h5)]; exact h3, h4,
      by simp; omega, segs_old (by omega) h6⟩
  | .asleep :: r, h => exact stepsOf_empty (Nat.le_refl _)

/-- The hook flag. -/
theorem stHook (c : Int) (ls : List StLabel) (s : StState) (h : stRun (StState.start c) ls = some s) : s.hook = true ↔ HookAt ls ls.length := by
  refine st_induction (P := fun ls s => s.hook = true ↔ HookAt ls ls.length) ?_ ?_ ls s h
  · exact ⟨fun h => (by cases h), fun ⟨k, hk, _⟩ => absurd hk (by simp)⟩
  · intro ls l s v _ ih he _
    have keep : l ≠ .init → (∀ t, l ≠ .make t true) → l ≠ .setHook → (s.hook = true ↔ HookAt (ls ++ [l]) (ls ++ [l]).length) := by
      intro h1 h2 h3
      rw [ih, List.length_append]
      constructor
      · rintro ⟨j, a, b, d⟩
        refine ⟨j, by simp; omega, at_mono b, fun i e f => ⟨fun g => ?_, fun t g => ?_⟩⟩
        · rcases at_snoc.1 g with g | ⟨_, g⟩
          · exact (d i e (at_lt g)).1 g
          · exact h1 g.symm
        · rcases at_snoc.1 g with g | ⟨_, g⟩
          · exact (d i e (at_lt g)).2 t g
          · exact h2 t g.symm
      · rintro ⟨j, a, b, d⟩
        rcases at_snoc.1 b with b | ⟨_, b⟩
        · exact ⟨j, at_lt b, b, fun i e f => ⟨fun g => (d i e (by simp; omega)).1 (at_mono g), fun t g => (d i e (by simp; omega)).2 t (at_mono g)⟩⟩
        · exact absurd b.symm h3
    have clear : (l = .init ∨ ∃ t, l = .make t true) → ¬ HookAt (ls ++ [l]) (ls ++ [l]).length := by
      rintro hl ⟨j, a, b, d⟩
      rcases at_snoc.1 b with b | ⟨_, b⟩
      · have := d ls.length (at_lt b) (by simp)
        rcases hl with rfl | ⟨t, rfl⟩
        · exact this.1 (at_last _ _)
        · exact this.2 t (at_last _ _)
      · rcases hl with rfl | ⟨t, rfl⟩ <;> cases b
    cases he with
    | setHook => exact ⟨fun _ => ⟨ls.length, by simp, at_last _ _, fun i h1 h2 => absurd h2 (by simp; omega)⟩, fun _ => rfl⟩
    | initAgain _ _ => exact ⟨fun h => (by cases h), fun h => absurd h (clear (.inl rfl))⟩
    | initFirst _ _ => exact ⟨fun h => (by cases h), fun h => absurd h (clear (.inl rfl))⟩
    | makeFatal t _ _ _ _ => exact ⟨fun h => (by cases h), fun h => absurd h (clear (.inr ⟨t, rfl⟩))⟩
    | _ => exact keep (by simp) (by simp) (by simp)

theorem segs_thread {ls : List StLabel} {a : StLabel} {f : Nat → List StFrame} {t : Nat} {x : List StFrame} (ht : stThread a = some t)
    (h : ∀ u, Segs ls u ls.length (f u)) (hx : Segs (ls ++ [a]) t (ls.length + 1) x) : ∀ u, Segs (ls ++ [a]) u (ls.length + 1) (setStack f t x u) := by
  intro u
  by_cases hu : u = t
  · subst hu; rw [setStack_same]; exact hx
  · rw [setStack_other f x hu]
    exact segs_other (by rw [ht]; exact fun e => hu (Option.some.inj e).symm) (h u)

/-- The end of a statement that is not fatal. -/
theorem complete_end {ls : List StLabel} {t : Nat} {e : StEntry} {i : Nat} (hi : i ≤ e.began) (hb : At ls e.began (.begin t))
    (hm : At ls e.made (.make t false)) (hbm : e.began < e.made) (h1 : Complete t (stepsOf t ls i e.began))
    (h2 : Complete t (stepsOf t ls (e.began + 1) e.made)) (h3 : stepsOf t ls (e.made + 1) ls.length = []) :
    Complete t (stepsOf t (ls ++ [.push t]) i (ls.length + 1)) := by
  have hlt := at_lt hm
  have split : ∀ (i j k : Nat), i ≤ j → j ≤ k → stepsOf t ls i k = stepsOf t ls i j ++ stepsOf t ls j k := by
    intro i j k hij hjk
    unfold stepsOf
    rw [← List.filter_append]
    congr 1
    have h1 := List.take_append_drop j (ls.take k)
    rw [List.take_take, Nat.min_eq_left hjk] at h1
    by_cases hjl : j ≤ ls.length
    · rw [← h1, List.drop_append_of_le_length (by rw [List.length_take]; omega)]
      rw [h1]
    · rw [List.drop_of_length_le (i := j) (by rw [List.length_take]; omega), List.append_nil, List.take_of_length_le (by omega),
        List.take_of_length_le (by omega)]
  have one : ∀ (k : Nat) (l : StLabel), At ls k l → stThread l = some t → stepsOf t ls k (k + 1) = [l] := by
    intro k l hk hl
    unfold stepsOf
    have : (ls.take (k + 1)).drop k = [l] := by
      rw [List.take_succ, hk, List.drop_append_of_le_length (by rw [List.length_take]; have := at_lt hk; omega)]
      rw [List.drop_of_length_le (by rw [List.length_take]; omega)]
      rfl
    rw [this]
    simp [hl]
  rw [stepsOf_snoc (by omega), if_pos (show stThread (.push t) = some t from rfl), split i e.began _ hi (by omega), split e.began (e.began + 1) _ (by omega) (by omega),
    split (e.began + 1) e.made _ (by omega) (by omega), split e.made (e.made + 1) _ (by omega) (by omega), one _ _ hb rfl, one _ _ hm rfl, h3]
  have := Complete.snoc h1 h2
  simpa using this

theorem stSegs (c : Int) (ls : List StLabel) (s : StState) (h : stRun (StState.start c) ls = some s) :
    s.over = false → ∀ t, Segs ls t ls.length (s.stack t) := by
  refine st_induction (P := fun ls s => s.over = false → ∀ t, Segs ls t ls.length (s.stack t)) ?_ ?_ ls s h
  · exact fun _ t => Complete.nil
  · intro ls l s v hr ih he ho hv
    replace ih := ih ho
    have fl := stFlags c ls s hr
    have wh := stWhere c ls s hr
    have hlen : (ls ++ [l]).length = ls.length + 1 := by simp
    rw [hlen]
    have pop : ∀ t e r, l = .push t → s.stack t = .ready e :: r → Segs (ls ++ [l]) t (ls.length + 1) r := by
      rintro t e r rfl hst
      have hs := ih t
      rw [hst] at hs
      obtain ⟨s1, s2, s3, s4, s5⟩ := hs
      obtain ⟨f1, f2, f3, f4, _, _⟩ : FrameOk c ls t (.ready e) := wh.frames t _ (by rw [hst]; exact List.mem_cons_self ..)
      rw [f1] at f3 f4
      rw [f2] at f4
      have hlow := (stOrd c ls s hr).low t _ r hst
      match r, s5, hlow with
      | [], s5, _ => exact complete_end (Nat.zero_le _) f3 f4 s3 s5 s2 s1
      | .args b :: r, s5, _ =>
        obtain ⟨g1, g2, g3⟩ := s5
        have hb : b < e.began := by
          have := (stOrd c ls s hr).nest t
          rw [hst] at this
          exact (List.pairwise_cons.1 this).1 _ (List.mem_cons_self ..)
        exact ⟨complete_end (by omega) f3 f4 s3 g1 s2 s1, by simp; omega, segs_old (by omega) g3⟩
      | .fatal x b :: r, s5, hlow =>
        have hbt : b = true := hlow _ (List.mem_cons_self ..)
        obtain ⟨g1, g2, g3, g4, g5, g6⟩ := s5
        have hb : x.made < e.began := by
          have := (stOrd c ls s hr).nest t
          rw [hst] at this
          exact (List.pairwise_cons.1 this).1 _ (List.mem_cons_self ..)
        refine ⟨⟨complete_end (by omega) f3 f4 s3 g1.1 s2 s1, .inl hbt⟩, ?_, ?_, g4, by simp; omega, segs_old (by omega) g6⟩
        · rw [hookAt_mono (Nat.le_of_lt g5)]; exact g2
        · rw [stepsOf_old (Nat.le_of_lt g5)]; exact g3
      | .ready x :: r, _, h => cases h _ (List.mem_cons_self ..)
      | .asleep :: r, _, h => cases h _ (List.mem_cons_self ..)
    cases he with
    | begin t hc =>
      refine segs_thread rfl ih ⟨?_, ?_, ?_⟩
      · rw [stepsOf_empty (by have := fl.len; omega)]; exact .nil
      · rw [fl.len]; simp
      · rw [fl.len]; exact segs_old (Nat.le_refl _) (ih t)
    | make t b r hst =>
      have hs := ih t
      rw [hst] at hs
      obtain ⟨h1, h2, h3⟩ := hs
      refine segs_thread rfl ih ⟨?_, ?_, ?_, ?_, segs_old (Nat.le_of_lt h2) h3⟩
      · exact stepsOf_empty (by change ls.length + 1 ≤ s.n + 1; have := fl.len; omega)
      · change Complete t (stepsOf t _ (b + 1) s.n)
        rw [fl.len, stepsOf_old (Nat.le_refl _)]; exact h1
      · change b < s.n; rw [fl.len]; exact h2
      · change s.n < _; rw [fl.len]; simp
    | makeFatal t b r hst hsv =>
      have hs := ih t
      rw [hst] at hs
      obtain ⟨h1, h2, h3⟩ := hs
      have he : stepsOf t (ls ++ [.make t true]) (s.n + 1) (ls.length + 1) = [] := stepsOf_empty (by have := fl.len; omega)
      refine segs_thread rfl ih ⟨⟨?_, .inr he⟩, ?_, ?_, ?_, ?_, segs_old (Nat.le_of_lt h2) h3⟩
      · change Complete t (stepsOf t _ (s.n + 1) _)
        rw [he]; exact .nil
      · change s.hook = true ↔ HookAt _ s.n
        rw [fl.len, hookAt_mono (Nat.le_refl _)]; exact stHook c ls s hr
      · change Complete t (stepsOf t _ (b + 1) s.n)
        rw [fl.len, stepsOf_old (Nat.le_refl _)]; exact h1
      · change b < s.n; rw [fl.len]; exact h2
      · change s.n < _; rw [fl.len]; simp
    | push t e r hst ha => exact segs_thread rfl ih (pop t e r rfl hst)
    | drop t e r hst ha hf => exact segs_thread rfl ih (pop t e r rfl hst)
    | keep t e r hst ha hf => exact segs_thread rfl ih (pop t e r rfl hst)
    | pushFatal t e b r hst ha => exact segs_thread rfl ih (stepsOf_empty (Nat.le_refl _))
    | crash t e b r hst ha => cases hv
    | _ => exact fun t => segs_other (by simp [stThread]) (ih t)

/-! ### Whole statements, all hand-overs, the end of a thread -/

theorem whole_mono {ls : List StLabel} {a : StLabel} {e : StEntry} {k : Nat} (hk : k < ls.length) (h : Whole ls e k) : Whole (ls ++ [a]) e k := by
  obtain ⟨h1, h2, h3, h4⟩ := h
  refine ⟨h1, by rw [stepsOf_old (by omega)]; exact h2, fun hf => ?_, fun hf => ?_⟩
  · exact ⟨at_mono (h3 hf).1, by rw [stepsOf_old (by omega)]; exact (h3 hf).2⟩
  · obtain ⟨g1, g2, g3⟩ := h4 hf
    exact ⟨at_mono g1, by rw [stepsOf_old (by omega)]; exact g2, by rw [stepsOf_old (by omega), hookAt_mono (by omega)]; exact g3⟩

/-- Done, and perhaps kept until the first initializeLogging. -/
def DoneBy (ls : List StLabel) (e : StEntry) (h : Nat) : Prop :=
  Whole ls e h ∨ ∃ k, k < h ∧ Whole ls e k ∧ FirstAt ls k IsPush ∧ FirstAt ls h (· = .init)

structure StDone (ls : List StLabel) (s : StState) : Prop where
  out : ∀ p ∈ s.out, p.2 < ls.length ∧ DoneBy ls p.1 p.2
  kept : s.saved = false → ∀ e, s.kept = some e → ∃ k, k < ls.length ∧ Whole ls e k ∧ FirstAt ls k IsPush
  keeps : s.saved = false → s.first = true → s.kept.isSome = true
  push : ∀ h t, At ls h (.push t) → ActiveAt ls h → ∃ e, (e, h) ∈ s.out
  fatal : ∀ h t, At ls h (.pushFatal t) → ActiveAt ls h → ∃ e, (e, h) ∈ s.out
  init : ∀ h k t, FirstAt ls h (· = .init) → k < h → At ls k (.push t) → ∃ e, (e, h) ∈ s.out
  after : ∀ p ∈ s.out, p.1.fatal = true → ∀ k l, p.2 < k → At ls k l → stThread l ≠ some p.1.thread
  stop : ∀ h t, At ls h (.pushFatal t) → ¬ ActiveAt ls h → s.over = true ∧ h + 1 = ls.length
  over : s.over = true → ∃ h t, At ls h (.pushFatal t) ∧ ¬ ActiveAt ls h

theorem stDone (c : Int) (ls : List StLabel) (s : StState) (h : stRun (StState.start c) ls = some s) : StDone ls s := by
  refine st_induction (P := StDone) ?_ ?_ ls s h
  · refine ⟨fun p hp => (by cases hp), fun _ e he => (by cases he), fun _ h => (by cases h), ?_, ?_, ?_, fun p hp => (by cases hp), ?_, fun h => (by cases h)⟩
    · exact fun h t ht => absurd (at_lt ht) (by simp)
    · exact fun h t ht => absurd (at_lt ht) (by simp)
    · exact fun h k t _ _ ht => absurd (at_lt ht) (by simp)
    · exact fun h t ht => absurd (at_lt ht) (by simp)
  · intro ls l s v hr ih he ho
    have fl := stFlags c ls s hr
    have wh := stWhere c ls s hr
    have sg := stSegs c ls s hr ho
    have od := stOrd c ls s hr
    obtain ⟨i1, i2, i3, i4, i5, i6, i7, i8, i9⟩ := ih
    have hlen : (ls ++ [l]).length = ls.length + 1 := by simp
    have j1 : ∀ p ∈ s.out, p.2 < (ls ++ [l]).length ∧ DoneBy (ls ++ [l]) p.1 p.2 := by
      intro p hp
      obtain ⟨h1, h2⟩ := i1 p hp
      refine ⟨by rw [hlen]; omega, ?_⟩
      rcases h2 with h2 | ⟨k, h2, h3, h4, h5⟩
      · exact .inl (whole_mono h1 h2)
      · exact .inr ⟨k, h2, whole_mono (by omega) h3, firstAt_mono h4, firstAt_mono h5⟩
    have j2 : s.saved = false → ∀ e, s.kept = some e → ∃ k, k < (ls ++ [l]).length ∧ Whole (ls ++ [l]) e k ∧ FirstAt (ls ++ [l]) k IsPush := by
      intro hs e hk
      obtain ⟨k, h1, h2, h3⟩ := i2 hs e hk
      exact ⟨k, by rw [hlen]; omega, whole_mono h1 h2, firstAt_mono h3⟩
    -- hand-overs before the last step are still there
    have j4 : ∀ o : List (StEntry × Nat), (∀ p ∈ s.out, p ∈ o) → (∀ t, l = .push t → ActiveAt ls ls.length → ∃ e, (e, ls.length) ∈ o) →
        ∀ h t, At (ls ++ [l]) h (.push t) → ActiveAt (ls ++ [l]) h → ∃ e, (e, h) ∈ o := by
      intro o ho hl h t ht ha
      rcases at_snoc.1 ht with ht | ⟨rfl, e⟩
      · obtain ⟨e, he⟩ := i4 h t ht ((activeAt_mono (Nat.le_of_lt (at_lt ht))).1 ha)
        exact ⟨e, ho _ he⟩
      · exact hl t e.symm ((activeAt_mono (Nat.le_refl _)).1 ha)
    have j5 : ∀ o : List (StEntry × Nat), (∀ p ∈ s.out, p ∈ o) → (∀ t, l = .pushFatal t → ActiveAt ls ls.length → ∃ e, (e, ls.length) ∈ o) →
        ∀ h t, At (ls ++ [l]) h (.pushFatal t) → ActiveAt (ls ++ [l]) h → ∃ e, (e, h) ∈ o := by
      intro o ho hl h t ht ha
      rcases at_snoc.1 ht with ht | ⟨rfl, e⟩
      · obtain ⟨e, he⟩ := i5 h t ht ((activeAt_mono (Nat.le_of_lt (at_lt ht))).1 ha)
        exact ⟨e, ho _ he⟩
      · exact hl t e.symm ((activeAt_mono (Nat.le_refl _)).1 ha)
    have j6 : ∀ o : List (StEntry × Nat), (∀ p ∈ s.out, p ∈ o) → (l = .init → s.saved = false → (∃ k t, At ls k (.push t)) → ∃ e, (e, ls.length) ∈ o) →
        ∀ h k t, FirstAt (ls ++ [l]) h (· = .init) → k < h → At (ls ++ [l]) k (.push t) → ∃ e, (e, h) ∈ o := by
      intro o ho hl h k t hf hk ht
      obtain ⟨⟨m, hm, rfl⟩, hno⟩ := hf
      have hk' : At ls k (.push t) := at_old ht (by have := at_lt hm; rw [hlen] at this; omega)
      rcases at_snoc.1 hm with hm | ⟨rfl, e⟩
      · obtain ⟨e, he⟩ := i6 h k t ⟨⟨_, hm, rfl⟩, fun k l hk hl => hno k l hk (at_mono hl)⟩ hk hk'
        exact ⟨e, ho _ he⟩
      · refine hl e.symm ?_ ⟨k, t, hk'⟩
        cases hs : s.saved with
        | false => rfl
        | true =>
          obtain ⟨q, hq⟩ := fl.saved.1 hs
          exact absurd rfl (hno q _ (at_lt hq) (at_mono hq))
    have j7 : ∀ p ∈ s.out, p.1.fatal = true → stThread l ≠ some p.1.thread → ∀ k m, p.2 < k → At (ls ++ [l]) k m → stThread m ≠ some p.1.thread := by
      intro p hp hf hl k m hk hm
      rcases at_snoc.1 hm with hm | ⟨rfl, rfl⟩
      · exact i7 p hp hf k m hk hm
      · exact hl
    have j7' : ∀ t, stThread l = some t → s.stack t ≠ [.asleep] → ∀ p ∈ s.out, p.1.fatal = true → ∀ k m, p.2 < k → At (ls ++ [l]) k m →
        stThread m ≠ some p.1.thread := by
      intro t ht hne p hp hf
      refine j7 p hp hf ?_
      rw [ht]
      intro e
      rw [Option.some.inj e] at hne
      exact hne (od.last p hp hf)
    have j8 : (∀ t, l ≠ .pushFatal t) → ∀ h t, At (ls ++ [l]) h (.pushFatal t) → ¬ ActiveAt (ls ++ [l]) h → s.over = true ∧ h + 1 = (ls ++ [l]).length := by
      intro hl h t ht hn
      rcases at_snoc.1 ht with ht | ⟨rfl, e⟩
      · have := (i8 h t ht (fun x => hn ((activeAt_mono (Nat.le_of_lt (at_lt ht))).2 x))).1
        rw [ho] at this; cases this
      · exact absurd e.symm (hl t)
    have j9 : s.over = true → ∃ h t, At (ls ++ [l]) h (.pushFatal t) ∧ ¬ ActiveAt (ls ++ [l]) h := fun h => by rw [ho] at h; cases h
    have wready : ∀ t e r, l = .push t → s.stack t = .ready e :: r → Whole (ls ++ [l]) e ls.length := by
      rintro t e r rfl hst
      obtain ⟨f1, f2, f3⟩ : FrameOk c ls t (.ready e) := wh.frames t _ (by rw [hst]; exact List.mem_cons_self ..)
      have hs := sg t
      rw [hst] at hs
      obtain ⟨s1, s2, s3, s4, s5⟩ := hs
      subst f1
      refine ⟨s4, by rw [stepsOf_old (by omega)]; exact s2, fun _ => ⟨at_last _ _, by rw [stepsOf_old (by omega)]; exact s1⟩, fun hf => ?_⟩
      rw [f2] at hf; cases hf
    cases he with
    | initFirst ha hs =>
      refine ⟨?_, fun h => (by cases h), fun h => (by cases h), ?_, ?_, ?_, ?_, j8 (by simp), j9⟩
      · intro p hp
        rcases List.mem_append.1 hp with hp | hp
        · exact j1 p hp
        · cases hk : s.kept with
          | none => rw [hk] at hp; cases hp
          | some e =>
            rw [hk] at hp
            have : p = (e, s.n) := by simpa using hp
            obtain ⟨k, h1, h2, h3⟩ := i2 hs e hk
            rw [this, fl.len]
            refine ⟨by rw [hlen]; exact Nat.lt_succ_self _, .inr ⟨k, h1, whole_mono h1 h2, firstAt_mono h3, firstAt_last rfl ?_⟩⟩
            rintro q m hq rfl
            rw [fl.saved.2 ⟨q, hq⟩] at hs; cases hs
      · exact j4 _ (fun p hp => List.mem_append_left _ hp) (by simp)
      · exact j5 _ (fun p hp => List.mem_append_left _ hp) (by simp)
      · refine j6 _ (fun p hp => List.mem_append_left _ hp) ?_
        intro _ _ hp
        obtain ⟨e, he⟩ := Option.isSome_iff_exists.1 (i3 hs ((fl.first hs).2 hp))
        exact ⟨e, List.mem_append_right _ (by rw [he, ← fl.len]; simp)⟩
      · intro p hp hf
        rcases List.mem_append.1 hp with hp | hp
        · exact j7 p hp hf (by simp [stThread])
        · cases hk : s.kept with
          | none => rw [hk] at hp; cases hp
          | some e =>
            rw [hk] at hp
            have : p = (e, s.n) := by simpa using hp
            rw [this] at hf
            rw [(wh.kept hs e hk).2.1] at hf; cases hf
    | initAgain ha hs =>
      refine ⟨j1, j2, i3, j4 _ (fun _ h => h) (by simp), j5 _ (fun _ h => h) (by simp), j6 _ (fun _ h => h) ?_, fun p hp hf => j7 p hp hf (by simp [stThread]),
        j8 (by simp), j9⟩
      intro _ h; rw [hs] at h; cases h
    | begin t hc =>
      exact ⟨j1, j2, i3, j4 _ (fun _ h => h) (by simp), j5 _ (fun _ h => h) (by simp), j6 _ (fun _ h => h) (by simp),
        j7' t rfl (fun e => by rw [e] at hc; cases hc), j8 (by simp), j9⟩
    | make t b r hst =>
      exact ⟨j1, j2, i3, j4 _ (fun _ h => h) (by simp), j5 _ (fun _ h => h) (by simp), j6 _ (fun _ h => h) (by simp),
        j7' t rfl (fun e => by rw [e] at hst; cases hst), j8 (by simp), j9⟩
    | makeFatal t b r hst hs =>
      exact ⟨j1, j2, i3, j4 _ (fun _ h => h) (by simp), j5 _ (fun _ h => h) (by simp), j6 _ (fun _ h => h) (by simp),
        j7' t rfl (fun e => by rw [e] at hst; cases hst), j8 (by simp), j9⟩
    | push t e r hst ha =>
      have f2 : e.fatal = false := (wh.frames t (.ready e) (by rw [hst]; exact List.mem_cons_self ..)).2.1
      have hm : (e, ls.length) ∈ s.out ++ [(e, s.n)] := List.mem_append_right _ (by rw [fl.len]; simp)
      refine ⟨?_, j2, i3, j4 _ (fun p hp => List.mem_append_left _ hp) (fun _ _ _ => ⟨e, hm⟩), j5 _ (fun p hp => List.mem_append_left _ hp) (by simp),
        j6 _ (fun p hp => List.mem_append_left _ hp) (by simp), ?_, j8 (by simp), j9⟩
      · intro p hp
        rcases List.mem_append.1 hp with hp | hp
        · exact j1 p hp
        · rw [List.mem_singleton.1 hp, fl.len]
          exact ⟨by rw [hlen]; exact Nat.lt_succ_self _, .inl (wready t e r rfl hst)⟩
      · intro p hp hf
        rcases List.mem_append.1 hp with hp | hp
        · exact j7' t rfl (fun e => by rw [e] at hst; cases hst) p hp hf
        · rw [List.mem_singleton.1 hp] at hf
          rw [f2] at hf; cases hf
    | drop t e r hst ha hf =>
      refine ⟨j1, j2, i3, j4 _ (fun _ h => h) ?_, j5 _ (fun _ h => h) (by simp), j6 _ (fun _ h => h) (by simp),
        j7' t rfl (fun e => by rw [e] at hst; cases hst), j8 (by simp), j9⟩
      intro _ _ hact
      rw [fl.act.2 hact] at ha; cases ha
    | keep t e r hst ha hf =>
      refine ⟨j1, ?_, fun _ _ => rfl, j4 _ (fun _ h => h) ?_, j5 _ (fun _ h => h) (by simp), j6 _ (fun _ h => h) (by simp),
        j7' t rfl (fun e => by rw [e] at hst; cases hst), j8 (by simp), j9⟩
      · intro hs x hx
        rw [← Option.some.inj hx]
        refine ⟨ls.length, by rw [hlen]; exact Nat.lt_succ_self _, wready t e r rfl hst, firstAt_last ⟨t, rfl⟩ ?_⟩
        rintro k m hm ⟨u, rfl⟩
        rw [(fl.first hs).2 ⟨k, u, hm⟩] at hf; cases hf
      · intro _ _ hact
        rw [fl.act.2 hact] at ha; cases ha
    | pushFatal t e b r hst ha =>
      obtain ⟨f1, f2, f3⟩ : FrameOk c ls t (.fatal e b) := wh.frames t _ (by rw [hst]; exact List.mem_cons_self ..)
      have hm : (e, ls.length) ∈ s.out ++ [(e, s.n)] := List.mem_append_right _ (by rw [fl.len]; simp)
      have hs := sg t
      rw [hst] at hs
      obtain ⟨s1, s2, s3, s4, s5, s6⟩ := hs
      refine ⟨?_, j2, i3, j4 _ (fun p hp => List.mem_append_left _ hp) (by simp),
        j5 _ (fun p hp => List.mem_append_left _ hp) (fun _ _ _ => ⟨e, hm⟩),
        j6 _ (fun p hp => List.mem_append_left _ hp) (by simp), ?_, ?_, j9⟩
      · intro p hp
        rcases List.mem_append.1 hp with hp | hp
        · exact j1 p hp
        · rw [List.mem_singleton.1 hp, fl.len]
          refine ⟨by rw [hlen]; exact Nat.lt_succ_self _, .inl ⟨s5, ?_, fun hf => ?_, fun _ => ?_⟩⟩
          · change Complete e.thread (stepsOf e.thread _ _ _)
            rw [f1, stepsOf_old (Nat.le_of_lt s5)]; exact s3
          · rw [show e.fatal = false from hf] at f2; cases f2
          · change At _ _ (.pushFatal e.thread) ∧ Complete e.thread (stepsOf e.thread _ _ _) ∧ (_ ∨ stepsOf e.thread _ _ _ = [])
            rw [f1, stepsOf_old (Nat.le_refl _), hookAt_mono (Nat.le_of_lt s5), ← s2]
            exact ⟨at_last _ _, s1.1, s1.2⟩
      · intro p hp hf
        rcases List.mem_append.1 hp with hp | hp
        · exact j7' t rfl (fun e => by rw [e] at hst; cases hst) p hp hf
        · rw [List.mem_singleton.1 hp, fl.len]
          intro k m hk hm
          have := at_lt hm
          rw [hlen] at this
          exact absurd hk (by change ¬ ls.length < k; omega)
      · intro h u hu hn
        exfalso
        rcases at_snoc.1 hu with hu | ⟨rfl, _⟩
        · have := (i8 h u hu (fun x => hn ((activeAt_mono (Nat.le_of_lt (at_lt hu))).2 x))).1
          rw [ho] at this; cases this
        · exact hn ((activeAt_mono (Nat.le_refl _)).2 (fl.act.1 ha))
    | crash t e b r hst ha =>
      have hna : ¬ ActiveAt (ls ++ [.pushFatal t]) ls.length := by
        intro h
        have := fl.act.2 ((activeAt_mono (Nat.le_refl _)).1 h)
        rw [ha] at this; cases this
      refine ⟨j1, j2, i3, j4 _ (fun _ h => h) (by simp), j5 _ (fun _ h => h) ?_, j6 _ (fun _ h => h) (by simp),
        j7' t rfl (fun e => by rw [e] at hst; cases hst), ?_, fun _ => ⟨ls.length, t, at_last _ _, hna⟩⟩
      · intro _ _ hact
        rw [fl.act.2 hact] at ha; cases ha
      · intro h u hu hn
        refine ⟨rfl, ?_⟩
        rcases at_snoc.1 hu with hu | ⟨rfl, _⟩
        · have := (i8 h u hu (fun x => hn ((activeAt_mono (Nat.le_of_lt (at_lt hu))).2 x))).1
          rw [ho] at this; cases this
        · rw [hlen]
    | _ =>
      exact ⟨j1, j2, i3, j4 _ (fun _ h => h) (by simp), j5 _ (fun _ h => h) (by simp), j6 _ (fun _ h => h) (by simp),
        fun p hp hf => j7 p hp hf (by simp [stThread]), j8 (by simp), j9⟩

end G3
