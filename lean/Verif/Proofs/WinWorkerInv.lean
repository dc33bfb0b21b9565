import Verif.Proofs.WinWorkerRun
/-
Invariants of the worker on Windows.
-/
namespace G3.Props
open G3 G3.Spec

variable {M : Type}

/-! ### What a step of the worker model does to some of the fields -/

/-- The line that a task puts on stderr. -/
def errOf (att : List Nat) : WTask M → List (ErrLine M)
  | .save m => if att = [] then [.noSinks m] else []
  | .fatal m => [.fatal m]
  | _ => []

/-- Tasks are added at the end, sinks get new numbers. -/
structure SubGrow (w w' : WState M) : Prop where
  sub : ∃ t, w'.sub = w.sub ++ t ∧ ∀ i, .add i ∈ t → w.n ≤ i
  n : w.n ≤ w'.n
  completed : w.completed ≤ w'.completed

theorem subGrow_refl (w : WState M) : SubGrow w w := ⟨⟨[], by simp⟩, Nat.le_refl _, Nat.le_refl _⟩

theorem subGrow_same {w w' : WState M} (h1 : w'.sub = w.sub) (h2 : w'.n = w.n) (h3 : w'.completed = w.completed ∨ w'.completed = w.completed + 1) : SubGrow w w' :=
  ⟨⟨[], by simp [h1]⟩, by omega, by omega⟩

theorem subGrow_trans {a b c : WState M} (h : SubGrow a b) (g : SubGrow b c) : SubGrow a c := by
  refine ⟨?_, Nat.le_trans h.n g.n, Nat.le_trans h.completed g.completed⟩
  obtain ⟨t, ht, h1⟩ := h.sub
  obtain ⟨r, hr, h2⟩ := g.sub
  refine ⟨t ++ r, by rw [hr, ht, List.append_assoc], ?_⟩
  intro i hi
  rcases List.mem_append.1 hi with hi | hi
  · exact h1 i hi
  · exact Nat.le_trans h.n (h2 i hi)

theorem tr_subGrow {w w' : WState M} (h : Tr w w') : SubGrow w w' := by
  cases h with
  | save => exact ⟨⟨[.save _], rfl, by simp⟩, Nat.le_refl _, Nat.le_refl _⟩
  | fatal => exact ⟨⟨[.fatal _], rfl, by simp⟩, Nat.le_refl _, Nat.le_refl _⟩
  | sFatal => exact ⟨⟨[.fatal _], rfl, by simp⟩, Nat.le_refl _, Nat.le_refl _⟩
  | addQ => exact ⟨⟨[.add _], rfl, by simp⟩, Nat.le_succ _, Nat.le_refl _⟩
  | addN => exact ⟨⟨[], by simp, by simp⟩, Nat.le_succ _, Nat.le_refl _⟩
  | rmQ => exact ⟨⟨[.remove _], rfl, by simp⟩, Nat.le_refl _, Nat.le_refl _⟩
  | clrQ => exact ⟨⟨[.clear], rfl, by simp⟩, Nat.le_refl _, Nat.le_refl _⟩
  | dStart => exact ⟨⟨[.clear], rfl, by simp⟩, Nat.le_refl _, Nat.le_refl _⟩
  | dStop => exact ⟨⟨[.done], rfl, by simp⟩, Nat.le_refl _, Nat.le_refl _⟩
  | _ => first | exact subGrow_same rfl rfl (Or.inl rfl) | exact subGrow_same rfl rfl (Or.inr rfl)

/-- The worker finishes a task that is no fatal event, and which one. -/
def finishes (w : WState M) : Prop :=
  (∃ t r, w.wpc = .idle ∧ w.wq = t :: r ∧ ∀ m, t ≠ .fatal m) ∨ (∃ x, w.wpc = .sending x [] ∧ ∀ m, x ≠ .fatal m) ∨ (∃ i, w.wpc = .rmHeld i) ∨
    (∃ i, w.wpc = .rmWait i) ∨ w.wpc = .clearing false

theorem tr_completed {w w' : WState M} (h : Tr w w') : w'.completed = w.completed ∨ (w'.completed = w.completed + 1 ∧ w'.sub = w.sub ∧ finishes w) := by
  cases h with
  | tSaveNone m r hp hw => exact Or.inr ⟨rfl, rfl, Or.inl ⟨_, _, hp, hw, by simp⟩⟩
  | tAdd i r hp hw => exact Or.inr ⟨rfl, rfl, Or.inl ⟨_, _, hp, hw, by simp⟩⟩
  | tRmNo i r hp hw => exact Or.inr ⟨rfl, rfl, Or.inl ⟨_, _, hp, hw, by simp⟩⟩
  | tDone r hp hw => exact Or.inr ⟨rfl, rfl, Or.inl ⟨_, _, hp, hw, by simp⟩⟩
  | sendEnd x hp hx => exact Or.inr ⟨rfl, rfl, Or.inr (Or.inl ⟨_, hp, hx⟩)⟩
  | rmKeep i hp => exact Or.inr ⟨rfl, rfl, Or.inr (Or.inr (Or.inl ⟨_, hp⟩))⟩
  | rmReap i hp => exact Or.inr ⟨rfl, rfl, Or.inr (Or.inr (Or.inr (Or.inl ⟨_, hp⟩)))⟩
  | clrEnd hp => exact Or.inr ⟨rfl, rfl, Or.inr (Or.inr (Or.inr (Or.inr hp)))⟩
  | _ => exact Or.inl rfl

theorem tr_err {w w' : WState M} (h : Tr w w') : (w'.err = w.err ∧ started w' = started w) ∨
    (∃ t r, w.wpc = .idle ∧ w.wq = t :: r ∧ w'.sub = w.sub ∧ started w' = w.completed + 1 ∧ w'.err = w.err ++ errOf w.att t) := by
  cases h with
  | tSaveNone m r hp hw ha => exact Or.inr ⟨_, _, hp, hw, rfl, by simp [started, hp, pcBusy], by simp [errOf, ha]⟩
  | tSave m r hp hw ha => exact Or.inr ⟨_, _, hp, hw, rfl, rfl, by simp [errOf, ha]⟩
  | tFatal m r hp hw => exact Or.inr ⟨_, _, hp, hw, rfl, rfl, by simp [errOf]⟩
  | tAdd i r hp hw => exact Or.inr ⟨_, _, hp, hw, rfl, by simp [started, hp, pcBusy], by simp [errOf]⟩
  | tRmYes i r hp hw => exact Or.inr ⟨_, _, hp, hw, rfl, rfl, by simp [errOf]⟩
  | tRmNo i r hp hw => exact Or.inr ⟨_, _, hp, hw, rfl, by simp [started, hp, pcBusy], by simp [errOf]⟩
  | tClear r hp hw => exact Or.inr ⟨_, _, hp, hw, rfl, rfl, by simp [errOf]⟩
  | tDone r hp hw => exact Or.inr ⟨_, _, hp, hw, rfl, by simp [started, pcBusy], by simp [errOf]⟩
  | send x i rest hp => exact Or.inl ⟨rfl, by simp [started, hp, pcBusy]⟩
  | sendEndF m hp => exact Or.inl ⟨rfl, by simp [started, hp, pcBusy]⟩
  | sendEnd x hp hx => exact Or.inl ⟨rfl, by simp [started, hp, pcBusy]⟩
  | rmKeep i hp => exact Or.inl ⟨rfl, by simp [started, hp, pcBusy]⟩
  | rmDrop i hp => exact Or.inl ⟨rfl, by simp [started, hp, pcBusy]⟩
  | rmReap i hp => exact Or.inl ⟨rfl, by simp [started, hp, pcBusy]⟩
  | clrEndF hp => exact Or.inl ⟨rfl, by simp [started, hp, pcBusy]⟩
  | clrEnd hp => exact Or.inl ⟨rfl, by simp [started, hp, pcBusy]⟩
  | clrKeep f i r hp => exact Or.inl ⟨rfl, rfl⟩
  | clrDrop f i r hp => exact Or.inl ⟨rfl, by simp [started, hp, pcBusy]⟩
  | clrReap i f hp => exact Or.inl ⟨rfl, by simp [started, hp, pcBusy]⟩
  | _ => exact Or.inl ⟨rfl, rfl⟩

/-! ### Invariants -/

section
variable {exc : M → Bool}

/-- The task that the worker thread finishes is no fatal event. -/
theorem finishes_task {s : YState M} {b : WState M} (h : SimR exc s b) (hf : finishes s.w) : ∀ m, s.w.sub[s.w.completed]? ≠ some (.fatal m) := by
  have key : ∀ {t : WTask M} {r}, s.w.sub.drop s.w.completed = t :: r → s.w.sub[s.w.completed]? = some t := fun e => (take_lemma e).1
  intro m hm
  rcases h.cur with e | e | ⟨c, hc, hd⟩
  · rcases hf with ⟨_, _, h1, _⟩ | ⟨_, h1, _⟩ | ⟨_, h1⟩ | ⟨_, h1⟩ | h1 <;> rw [e] at h1 <;> cases h1
  · rcases hf with ⟨_, _, h1, _⟩ | ⟨_, h1, _⟩ | ⟨_, h1⟩ | ⟨_, h1⟩ | h1 <;> rw [e] at h1 <;> cases h1
  · rcases hf with ⟨t, r, h1, h2, h3⟩ | ⟨x, h1, h3⟩ | ⟨i, h1⟩ | ⟨i, h1⟩ | h1
    · rw [h1] at hc; cases hc
      rw [h2] at hd
      rw [key hd] at hm
      exact h3 m (by simpa using hm)
    · rw [h1] at hc
      generalize s.msg = o at hc
      cases hc with
      | msg => rw [key hd] at hm; cases hm
      | fatal => exact absurd rfl (h3 _)
    all_goals
      rw [h1] at hc; cases hc
      rw [key hd] at hm; cases hm

/-- The tasks of exceptions that are finished. -/
def excDone (exc : M → Bool) (w : WState M) : Prop := ∃ p m, p < w.completed ∧ w.sub[p]? = some (.fatal m) ∧ exc m = true

theorem excDone_grow {w w' : WState M} (h : SubGrow w w') (hd : excDone exc w) : excDone exc w' := by
  obtain ⟨p, m, h1, h2, h3⟩ := hd
  obtain ⟨t, ht, _⟩ := h.sub
  refine ⟨p, m, Nat.lt_of_lt_of_le h1 h.completed, ?_, h3⟩
  rw [ht, List.getElem?_append_left (List.getElem?_eq_some_iff.1 h2).1]; exact h2

theorem xstep_grow {s s' : YState M} {l : YLabel M} (h : yStep exc s l = some s') : SubGrow s.w s'.w := by
  rcases yStep_cases h with ⟨l', w, hw, _, e1, _⟩ | ⟨_, _, _, _, e⟩ | ⟨t, _, _, _, _, e⟩ | ⟨i, _, _, _, _, _, e⟩
  · rw [e1]; exact tr_subGrow (tr_of_step hw).2.2
  · subst e; exact subGrow_same rfl rfl (Or.inr rfl)
  · subst e; exact subGrow_refl _
  · subst e; exact subGrow_same rfl rfl (Or.inl rfl)

theorem xrun_grow (ls : List (YLabel M)) : ∀ {s s' : YState M}, yRun exc s ls = some s' → SubGrow s.w s'.w := by
  induction ls with
  | nil => intro s s' h; cases h; exact subGrow_refl _
  | cons l ls ih =>
    intro s s' h
    simp only [yRun] at h
    obtain ⟨u, hl, h⟩ := Option.bind_eq_some_iff.1 h
    exact subGrow_trans (xstep_grow hl) (ih h)

theorem block_step {s s' : YState M} {b : WState M} {l : YLabel M} (h : SimR exc s b) (hs : yStep exc s l = some s')
    (hi : s.block = false ↔ excDone exc s.w) : s'.block = false ↔ excDone exc s'.w := by
  rcases yStep_cases hs with ⟨l', w, hw, _, e1, _, e2, _⟩ | ⟨_, _, h1, h2, e⟩ | ⟨t, _, _, _, _, e⟩ | ⟨i, _, _, _, _, _, e⟩
  · rw [e2, hi]
    refine ⟨excDone_grow (xstep_grow hs), ?_⟩
    rw [e1]
    have ht := (tr_of_step hw).2.2
    rintro ⟨p, m, p1, p2, p3⟩
    have hp : p < s.w.completed := by
      rcases tr_completed ht with e | ⟨e, e', hf⟩
      · omega
      · rw [e] at p1
        rcases Nat.lt_or_ge p s.w.completed with hl | hl
        · exact hl
        · have : p = s.w.completed := by omega
          rw [this, e'] at p2
          exact absurd p2 (finishes_task h hf m)
    obtain ⟨t, htt, _⟩ := (tr_subGrow ht).sub
    refine ⟨p, m, hp, ?_, p3⟩
    have := h.le
    rw [htt, List.getElem?_append_left (by omega)] at p2
    exact p2
  · subst e
    refine ⟨fun _ => ?_, fun _ => rfl⟩
    obtain ⟨hw, ha⟩ := (atExit_iff _).1 h1
    rcases h.cur with e | e | ⟨c, hc, hd⟩
    · rw [hw] at e; cases e
    · rw [hw] at e; cases e
    · rw [hw] at hc
      generalize eo : s.msg = o at hc
      cases hc with
      | clrF m =>
        rw [eo] at h2
        exact ⟨s.w.completed, m, Nat.lt_succ_self _, (take_lemma hd).1, h2⟩
  · subst e; exact hi
  · subst e; exact hi

/-- What stands on stderr. -/
def errInv (w : WState M) : Prop := w.err.map toErr = errsFrom [] ((w.sub.take (started w)).map req)

theorem started_le {s : YState M} {b : WState M} (h : SimR exc s b) (hd : s.w.wpc ≠ .dead) : started s.w ≤ s.w.sub.length := by
  have hle := h.le
  rcases h.cur with e | e | ⟨c, hc, hd⟩
  · unfold started; rw [e]; exact hle
  · exact absurd e hd
  · have := congrArg List.length hd
    rw [List.length_drop, List.length_append] at this
    unfold started
    generalize s.w.wpc = p at hc
    generalize s.msg = o at hc
    cases hc <;> simp only [pcBusy, List.length_cons, List.length_nil] at this ⊢ <;> omega

/-- The sinks that are attached while the worker thread is idle. -/
theorem sim_attached {s : YState M} {b : WState M} {bl : List (WLabel M)} (h : SimR exc s b) (hb : wRun WState.start bl = some b) (hp : s.w.wpc = .idle)
    (i : Nat) : i ∈ s.w.att ↔ attached i ((s.w.sub.take s.w.completed).map req) = true := by
  have ha := (allInv_run hb).w.deliver.att
  have hp' : b.wpc = .idle := by rw [h.wpc, hp]; rfl
  unfold attRel at ha
  rw [hp'] at ha
  have hi := ha i
  rw [h.att] at hi
  rw [hi]
  have hc : b.completed = (exL exc (s.w.sub.take s.w.completed)).length := by rw [h.completed, hp]; rfl
  have hs : b.sub = exL exc (s.w.sub.take s.w.completed) ++ exL exc (s.w.sub.drop s.w.completed) := by
    rw [h.sub, ← exL_append, List.take_append_drop]
  have : reqs b b.completed = exReqs exc ((s.w.sub.take s.w.completed).map req) := by
    unfold reqs; rw [hc, hs, List.take_left, req_exL]
  rw [this, attached_exReqs]

theorem toErr_errOf (att : List Nat) (pre : List (Req M)) (ha : att = [] ↔ nobody pre = true) (t : WTask M) :
    (errOf att t).map toErr = (req t).err pre := by
  cases t with
  | save m =>
    simp only [errOf, req, Req.err]
    by_cases e : att = []
    · rw [if_pos e, if_pos (ha.1 e)]; rfl
    · rw [if_neg e, if_neg (fun h => e (ha.2 h))]; rfl
  | _ => rfl

theorem err_step {s s' : YState M} {b : WState M} {bl : List (WLabel M)} {l : YLabel M} (h : SimR exc s b) (hb : wRun WState.start bl = some b)
    (hs : yStep exc s l = some s') (hi : errInv s.w) : errInv s'.w := by
  rcases yStep_cases hs with ⟨l', w, hw, _, e1, _, e2, _⟩ | ⟨_, _, h1, h2, e⟩ | ⟨t, _, _, _, _, e⟩ | ⟨i, _, _, _, _, _, e⟩
  · rw [e1]
    obtain ⟨_, hd, ht⟩ := tr_of_step hw
    unfold errInv at hi ⊢
    rcases tr_err ht with ⟨e1, e2⟩ | ⟨t, r, hp, hq, e3, e4, e5⟩
    · obtain ⟨t, htt, _⟩ := (tr_subGrow ht).sub
      rw [e1, e2, htt, List.take_append_of_le_length (started_le h hd)]; exact hi
    · have hdr : s.w.sub.drop s.w.completed = t :: r := by
        rcases h.cur with e | e | ⟨c, hc, hd⟩
        · rw [hp] at e; cases e
        · rw [hp] at e; cases e
        · rw [hp] at hc; cases hc
          rw [hd, hq]; rfl
      have hst : started s.w = s.w.completed := by unfold started; rw [hp]; rfl
      rw [e3, e4, e5, (take_lemma hdr).2.1, List.map_append, hi, hst, List.map_append, errsFrom_append]
      congr 1
      simp only [List.nil_append, List.map_cons, List.map_nil, errsFrom, List.append_nil]
      refine toErr_errOf _ _ ?_ t
      rw [nobody_iff]
      constructor
      · intro e i
        cases ha : attached i ((s.w.sub.take s.w.completed).map req) with
        | false => rfl
        | true => have := (sim_attached h hb hp i).2 ha; rw [e] at this; cases this
      · intro e
        cases ea : s.w.att with
        | nil => rfl
        | cons i r =>
          have := (sim_attached h hb hp i).1 (by rw [ea]; simp)
          rw [e i] at this; cases this
  · subst e
    obtain ⟨hw, _⟩ := (atExit_iff _).1 h1
    unfold errInv at hi ⊢
    have : started s.w = started { s.w with wpc := .idle, completed := s.w.completed + 1 } := by simp [started, hw, pcBusy]
    rw [← this]; exact hi
  · subst e; exact hi
  · subst e; exact hi

/-- Everything that is known about a reachable state. -/
theorem xinv_all {ls : List (YLabel M)} {s : YState M} (h : yRun exc YState.start ls = some s) (hu : s.w.ub = false) :
    ∃ bl b, wRun WState.start bl = some b ∧ SimR exc s b ∧ (s.block = false ↔ excDone exc s.w) ∧ errInv s.w := by
  have key : ∀ (ls : List (YLabel M)) {s s' : YState M} {b : WState M} {bl : List (WLabel M)}, wRun WState.start bl = some b → SimR exc s b →
      (s.block = false ↔ excDone exc s.w) → errInv s.w → yRun exc s ls = some s' → s'.w.ub = false →
      ∃ bl b, wRun WState.start bl = some b ∧ SimR exc s' b ∧ (s'.block = false ↔ excDone exc s'.w) ∧ errInv s'.w := by
    intro ls
    induction ls with
    | nil => intro s s' b bl hb h1 h2 h3 h4 _; cases h4; exact ⟨bl, b, hb, h1, h2, h3⟩
    | cons l ls ih =>
      intro s s' b bl hb h1 h2 h3 h4 hu
      simp only [yRun] at h4
      obtain ⟨u, hl, h4⟩ := Option.bind_eq_some_iff.1 h4
      have huu : u.w.ub = false := by
        cases e : u.w.ub with
        | false => rfl
        | true => obtain ⟨_, rfl⟩ := yRun_ub e h4; rw [e] at hu; cases hu
      obtain ⟨b1, c1, r1, s1⟩ := sim_xstep h1 hl huu
      exact ih (wRun_append' hb r1) s1 (block_step h1 hl h2) (err_step h1 hb hl h3) h4 hu
  refine key ls (bl := []) rfl sim_start ?_ rfl h hu
  constructor
  · intro e; cases e
  · rintro ⟨p, m, h1, _⟩; exact absurd h1 (Nat.not_lt_zero p)

/-! ### The tasks that are finished -/

theorem stops_exT (t : WTask M) (h : ∀ x ∈ exT exc t, isFinal x = false) : (req t).stops exc = false := by
  cases t with
  | fatal m =>
    cases e : exc m with
    | true => simp [req, Req.stops, e]
    | false => simp [exT, e, isFinal] at h
  | done => simp [exT, isFinal] at h
  | _ => rfl

theorem nonstop_exL {l : List (WTask M)} (h : ∀ x ∈ exL exc l, isFinal x = false) : ∀ r ∈ l.map req, r.stops exc = false := by
  intro r hr
  obtain ⟨t, ht, rfl⟩ := List.mem_map.1 hr
  exact stops_exT t fun x hx => h x (List.mem_flatMap.2 ⟨t, ht, hx⟩)

theorem sim_take {s : YState M} {b : WState M} (h : SimR exc s b) : exL exc (s.w.sub.take s.w.completed) <+: b.sub.take b.completed := by
  have hs : b.sub = exL exc (s.w.sub.take s.w.completed) ++ exL exc (s.w.sub.drop s.w.completed) := by
    rw [h.sub, ← exL_append, List.take_append_drop]
  rw [hs, h.completed, List.take_append, List.take_of_length_le (Nat.le_add_right _ _)]
  exact List.prefix_append _ _

theorem done_nonstop {s : YState M} {b : WState M} {bl : List (WLabel M)} (h : SimR exc s b) (hb : wRun WState.start bl = some b) (he : s.w.wpc ≠ .ended) :
    ∀ r ∈ (s.w.sub.take s.w.completed).map req, r.stops exc = false := by
  have hne : b.wpc ≠ .ended := by
    intro e
    rw [h.wpc] at e
    apply he
    generalize s.w.wpc = p at e
    unfold exWpc at e
    split at e
    · split at e <;> cases e
    all_goals first | exact e | cases e
  refine nonstop_exL fun x hx => (allInv_run hb).w.book.notFinal hne x ((sim_take h).sublist.subset hx)

theorem done_ended {s : YState M} {b : WState M} {bl : List (WLabel M)} (h : SimR exc s b) (hb : wRun WState.start bl = some b) (he : s.w.wpc = .ended) :
    ∃ pre, (s.w.sub.take s.w.completed).map req = pre ++ [.close] ∧ ∀ r ∈ pre, r.stops exc = false := by
  have hne : b.wpc = .ended := by rw [h.wpc, he]; rfl
  obtain ⟨pre, hp, hn⟩ := (allInv_run hb).w.book.ended hne
  have hs : b.sub = exL exc (s.w.sub.take s.w.completed) ++ exL exc (s.w.sub.drop s.w.completed) := by
    rw [h.sub, ← exL_append, List.take_append_drop]
  have hc : b.completed = (exL exc (s.w.sub.take s.w.completed)).length := by rw [h.completed, he]; rfl
  rw [hc, hs, List.take_left] at hp
  generalize s.w.sub.take s.w.completed = l at hp
  rcases List.eq_nil_or_concat l with rfl | ⟨l', t, rfl⟩
  · simp [exL] at hp
  · rw [List.concat_eq_append] at hp ⊢
    rw [exL_append, exL_single] at hp
    have ht : t = .done ∧ exL exc l' = pre := by
      cases t with
      | fatal m =>
        cases e : exc m with
        | true =>
          simp only [exT, e, if_true] at hp
          have : exL exc l' ++ [WTask.save m, .clear] = (exL exc l' ++ [.save m]) ++ [.clear] := by simp
          rw [this] at hp
          have := (List.append_inj' hp rfl).2
          cases this
        | false =>
          simp only [exT, e] at hp
          have := (List.append_inj' hp rfl).2
          cases this
      | done => exact ⟨rfl, (List.append_inj' hp rfl).1⟩
      | _ => have := (List.append_inj' hp rfl).2; cases this
    obtain ⟨rfl, rfl⟩ := ht
    exact ⟨l'.map req, by simp [req], nonstop_exL hn⟩

theorem dead_task {s : YState M} {b : WState M} {bl : List (WLabel M)} (h : SimR exc s b) (hb : wRun WState.start bl = some b) (he : s.w.wpc = .dead) :
    ∃ m r, s.w.sub.drop s.w.completed = .fatal m :: r ∧ exc m = false := by
  have hne : b.wpc = .dead := by rw [h.wpc, he]; rfl
  have ht := (allInv_run hb).w.book.task
  rw [hne] at ht
  obtain ⟨m, hm⟩ := ht
  have hs : b.sub = exL exc (s.w.sub.take s.w.completed) ++ exL exc (s.w.sub.drop s.w.completed) := by
    rw [h.sub, ← exL_append, List.take_append_drop]
  have hc : b.completed = (exL exc (s.w.sub.take s.w.completed)).length := by rw [h.completed, he]; rfl
  rw [hc, hs, List.getElem?_append_right (Nat.le_refl _), Nat.sub_self] at hm
  cases e : s.w.sub.drop s.w.completed with
  | nil => rw [e] at hm; cases hm
  | cons t r =>
    rw [e, exL_cons] at hm
    cases t with
    | fatal m' =>
      cases e' : exc m' with
      | true => simp [exT, e'] at hm
      | false => exact ⟨m', r, rfl, e'⟩
    | _ => simp [exT] at hm

theorem servedX_nonstop (l m : List (Req M)) (h : ∀ y ∈ l, y.stops exc = false) : servedX exc (l ++ m) = l ++ servedX exc m := by
  induction l with
  | nil => rfl
  | cons a l ih =>
    rw [List.cons_append, servedX, h a (by simp), if_neg (by simp), ih (fun y hy => h y (List.mem_cons_of_mem _ hy))]
    rfl

/-- What is started is an initial part of what is served; if the worker has nothing to do it is all of it. -/
theorem started_served {s : YState M} {b : WState M} {bl : List (WLabel M)} (h : SimR exc s b) (hb : wRun WState.start bl = some b) :
    (s.w.sub.take (started s.w)).map req <+: servedX exc (s.w.sub.map req) ∧
    (settled s.w → (s.w.sub.take (started s.w)).map req = servedX exc (s.w.sub.map req)) := by
  have hall : s.w.sub.map req = (s.w.sub.take s.w.completed).map req ++ (s.w.sub.drop s.w.completed).map req := by
    rw [← List.map_append, List.take_append_drop]
  by_cases he : s.w.wpc = .ended
  · obtain ⟨pre, hp, hn⟩ := done_ended h hb he
    have hst : started s.w = s.w.completed := by unfold started; rw [he]; rfl
    have : servedX exc (s.w.sub.map req) = pre ++ [.close] := by
      rw [hall, hp, List.append_assoc, servedX_nonstop _ _ hn]; rfl
    rw [hst, this, hp]
    exact ⟨List.prefix_refl _, fun _ => rfl⟩
  · have hn := done_nonstop h hb he
    have hsv : servedX exc (s.w.sub.map req) = (s.w.sub.take s.w.completed).map req ++ servedX exc ((s.w.sub.drop s.w.completed).map req) := by
      rw [hall, servedX_nonstop _ _ hn]
    have hidle : pcBusy s.w.wpc = 0 → s.w.wpc = .idle := by
      intro e
      cases hp : s.w.wpc <;> rw [hp] at e <;> simp [pcBusy] at e
      exact absurd hp he
    cases hb0 : pcBusy s.w.wpc with
    | zero =>
      have hst : started s.w = s.w.completed := by unfold started; rw [hb0]; rfl
      rw [hst, hsv]
      refine ⟨List.prefix_append _ _, ?_⟩
      intro hs
      have hp := hidle hb0
      rcases hs with ⟨_, hq⟩ | hw | hw
      · rcases h.cur with e | e | ⟨c, hc, hd⟩
        · exact absurd e he
        · rw [hp] at e; cases e
        · rw [hp] at hc; cases hc
          rw [hd, hq]; simp [servedX]
      · exact absurd hw he
      · rw [hp] at hw; cases hw
    | succ k =>
      have hst : started s.w = s.w.completed + 1 := by
        unfold started
        have : pcBusy s.w.wpc = 1 := by cases hp : s.w.wpc <;> rw [hp] at hb0 <;> simp [pcBusy] at hb0 ⊢
        rw [this]
      have hdr : ∃ t r, s.w.sub.drop s.w.completed = t :: r ∧ (s.w.wpc = .dead → (req t).stops exc = true) := by
        rcases h.cur with e | e | ⟨c, hc, hd⟩
        · exact absurd e he
        · obtain ⟨m, r, h1, h2⟩ := dead_task h hb e
          exact ⟨_, _, h1, fun _ => by simp [req, Req.stops, h2]⟩
        · generalize hp : s.w.wpc = p at hc
          rw [hp] at hb0
          generalize s.msg = o at hc
          cases hc <;> first | (cases hb0; done) | exact ⟨_, _, hd, by intro e; cases e⟩
      obtain ⟨t, r, hd, hstop⟩ := hdr
      rw [hst, (take_lemma hd).2.1, hsv, hd, List.map_append]
      simp only [List.map_cons, List.map_nil, servedX]
      constructor
      · split
        · exact List.prefix_refl _
        · exact (List.prefix_append_right_inj _).2 (by simp)
      · rintro (⟨hw, _⟩ | hw | hw)
        · rw [hw] at hb0; cases hb0
        · exact absurd hw he
        · rw [if_pos (hstop hw)]

theorem errsFrom_prefix {a c : List (Req M)} (h : a <+: c) : errsFrom [] a <+: errsFrom [] c := by
  obtain ⟨t, rfl⟩ := h
  rw [errsFrom_append]
  exact List.prefix_append _ _

end
end G3.Props
