import Verif.Props.WorkerHist
/-
What only grows in the worker model, and the consequences for single requests.
-/
namespace G3.Props
open G3 G3.Spec

variable {M : Type}

/-- What only grows. -/
structure Grows (s s' : WState M) : Prop where
  done : ∀ i, ∃ t, (s'.sk i).done = (s.sk i).done ++ t
  sub : ∃ t, s'.sub = s.sub ++ t ∧ ∀ i, .add i ∈ t → s.n ≤ i
  completed : s.completed ≤ s'.completed
  n : s.n ≤ s'.n
  calls : ∀ (k : Nat) (c : WCall), s.calls[k]? = some c → ∃ b, s'.calls[k]? = some { c with returned := b } ∧ (c.returned = true → b = true)

theorem grows_refl (s : WState M) : Grows s s :=
  ⟨fun _ => ⟨[], by simp⟩, ⟨[], by simp, by simp⟩, Nat.le_refl _, Nat.le_refl _, fun _ c hc => ⟨c.returned, hc, id⟩⟩

theorem grows_trans {a b c : WState M} (h : Grows a b) (g : Grows b c) : Grows a c := by
  refine ⟨?_, ?_, Nat.le_trans h.completed g.completed, Nat.le_trans h.n g.n, ?_⟩
  · intro i
    obtain ⟨t, ht⟩ := h.done i
    obtain ⟨u, hu⟩ := g.done i
    exact ⟨t ++ u, by rw [hu, ht, List.append_assoc]⟩
  · obtain ⟨t, ht, ht'⟩ := h.sub
    obtain ⟨u, hu, hu'⟩ := g.sub
    refine ⟨t ++ u, by rw [hu, ht, List.append_assoc], ?_⟩
    intro i hi
    rcases List.mem_append.1 hi with hi | hi
    · exact ht' i hi
    · exact Nat.le_trans h.n (hu' i hi)
  · intro k d hd
    obtain ⟨x, hx, hx'⟩ := h.calls k d hd
    obtain ⟨y, hy, hy'⟩ := g.calls k _ hx
    exact ⟨y, hy, fun hr => hy' (hx' hr)⟩

theorem done_upd {sk : Nat → SinkSt M} {i : Nat} {f : SinkSt M → SinkSt M} {t : List (SItem M)} (h : (f (sk i)).done = (sk i).done ++ t) :
    ∀ j, ∃ t, (updSink sk i f j).done = (sk j).done ++ t := by
  intro j
  by_cases hj : j = i
  · subst hj; rw [updSink_self]; exact ⟨t, h⟩
  · rw [updSink_ne _ _ hj]; exact ⟨[], by simp⟩

theorem calls_same {s s' : WState M} (h : s'.calls = s.calls) :
    ∀ (k : Nat) (c : WCall), s.calls[k]? = some c → ∃ b, s'.calls[k]? = some { c with returned := b } ∧ (c.returned = true → b = true) :=
  fun k c hc => ⟨c.returned, by rw [h]; exact hc, id⟩

theorem calls_more {s s' : WState M} {d : WCall} (h : s'.calls = s.calls ++ [d]) :
    ∀ (k : Nat) (c : WCall), s.calls[k]? = some c → ∃ b, s'.calls[k]? = some { c with returned := b } ∧ (c.returned = true → b = true) :=
  fun k c hc => ⟨c.returned, by rw [h]; exact getElem?_append_some hc, id⟩

theorem calls_set {s s' : WState M} {k : Nat} {d : WCall} (hd : s.calls[k]? = some d) (h : s'.calls = s.calls.set k { d with returned := true }) :
    ∀ (j : Nat) (c : WCall), s.calls[j]? = some c → ∃ b, s'.calls[j]? = some { c with returned := b } ∧ (c.returned = true → b = true) := by
  intro j c hc
  by_cases hj : k = j
  · subst hj
    rw [hd] at hc; cases hc
    refine ⟨true, ?_, fun _ => rfl⟩
    rw [h, List.getElem?_set_self (List.getElem?_eq_some_iff.1 hd).1]
  · exact ⟨c.returned, by rw [h, List.getElem?_set_ne hj]; exact hc, id⟩

theorem grows_tr {s s' : WState M} (ht : Tr s s') (hs : SInv s) : Grows s s' := by
  have same : ∀ i, ∃ t, (s.sk i).done = (s.sk i).done ++ t := fun _ => ⟨[], by simp⟩
  cases ht with
  | save => exact ⟨same, ⟨_, rfl, by simp⟩, Nat.le_refl _, Nat.le_refl _, calls_same rfl⟩
  | fatal => exact ⟨same, ⟨_, rfl, by simp⟩, Nat.le_refl _, Nat.le_refl _, calls_same rfl⟩
  | addQ =>
    exact ⟨done_upd (t := []) (by rw [hs.fresh s.n (Nat.le_refl _)]; rfl), ⟨_, rfl, by simp⟩, Nat.le_refl _, Nat.le_succ _, calls_more rfl⟩
  | addN =>
    exact ⟨done_upd (t := []) (by rw [hs.fresh s.n (Nat.le_refl _)]; rfl), ⟨[], by simp, by simp⟩, Nat.le_refl _, Nat.le_succ _, calls_more rfl⟩
  | rmQ => exact ⟨same, ⟨_, rfl, by simp⟩, Nat.le_refl _, Nat.le_refl _, calls_more rfl⟩
  | rmN => exact ⟨same, ⟨[], by simp, by simp⟩, Nat.le_refl _, Nat.le_refl _, calls_more rfl⟩
  | clrQ => exact ⟨same, ⟨_, rfl, by simp⟩, Nat.le_refl _, Nat.le_refl _, calls_more rfl⟩
  | clrN => exact ⟨same, ⟨[], by simp, by simp⟩, Nat.le_refl _, Nat.le_refl _, calls_more rfl⟩
  | retAddKeep k i c hk => exact ⟨same, ⟨[], by simp, by simp⟩, Nat.le_refl _, Nat.le_refl _, calls_set hk rfl⟩
  | retAddDrop k i c hk => exact ⟨done_upd (t := []) (by simp [SinkSt.stop]), ⟨[], by simp, by simp⟩, Nat.le_refl _, Nat.le_refl _, calls_set hk rfl⟩
  | retOther k c hk => exact ⟨same, ⟨[], by simp, by simp⟩, Nat.le_refl _, Nat.le_refl _, calls_set hk rfl⟩
  | dStart => exact ⟨same, ⟨_, rfl, by simp⟩, Nat.le_refl _, Nat.le_refl _, calls_same rfl⟩
  | dStop => exact ⟨same, ⟨_, rfl, by simp⟩, Nat.le_refl _, Nat.le_refl _, calls_same rfl⟩
  | sFin i x => exact ⟨done_upd (t := [x]) rfl, ⟨[], by simp, by simp⟩, Nat.le_refl _, Nat.le_refl _, calls_same rfl⟩
  | sFatal => exact ⟨done_upd (t := []) (by simp), ⟨_, rfl, by simp⟩, Nat.le_refl _, Nat.le_refl _, calls_same rfl⟩
  | _ => first
    | exact ⟨same, ⟨[], by simp, by simp⟩, Nat.le_refl _, Nat.le_refl _, calls_same rfl⟩
    | exact ⟨same, ⟨[], by simp, by simp⟩, Nat.le_succ _, Nat.le_refl _, calls_same rfl⟩
    | exact ⟨done_upd (t := []) (by simp [SinkSt.stop, SinkSt.push]), ⟨[], by simp, by simp⟩, Nat.le_refl _, Nat.le_refl _, calls_same rfl⟩
    | exact ⟨done_upd (t := []) (by simp [SinkSt.stop, SinkSt.push]), ⟨[], by simp, by simp⟩, Nat.le_succ _, Nat.le_refl _, calls_same rfl⟩

/-- The close request is the last. -/
def DoneLast (s : WState M) : Prop := ∀ p, s.sub[p]? = some .done → p + 1 = s.sub.length

theorem doneLast_push {s s' : WState M} (hb : Book s) (h0 : s.phase.bgNull = false) {t : WTask M} (h : s'.sub = s.sub ++ [t]) : DoneLast s' := by
  intro p hp
  rw [h] at hp ⊢
  rcases Nat.lt_or_ge p s.sub.length with hl | hl
  · rw [List.getElem?_append_left hl] at hp
    have := hb.closed.2 (List.mem_iff_getElem?.2 ⟨p, hp⟩)
    rw [h0] at this; cases this
  · have := (List.getElem?_eq_some_iff.1 hp).1
    simp at this ⊢; omega

theorem doneLast_tr {s s' : WState M} (ht : Tr s s') (hb : Book s) (h : DoneLast s) : DoneLast s' := by
  cases ht with
  | save m h0 => exact doneLast_push hb h0 rfl
  | fatal m h0 => exact doneLast_push hb h0 rfl
  | addQ h0 => exact doneLast_push hb h0 rfl
  | rmQ i hi h0 => exact doneLast_push hb h0 rfl
  | clrQ h0 => exact doneLast_push hb h0 rfl
  | dStart hp => exact doneLast_push hb (by rw [hp]; rfl) rfl
  | dStop p hp => exact doneLast_push hb (by rw [hp]; rfl) rfl
  | sFatal i x m hi hbl hr hx h0 => exact doneLast_push hb h0 rfl
  | _ => exact h

/-- Calls that found no worker were made after the destructor had given the worker up. -/
def NonePos (s : WState M) : Prop := ∀ c ∈ s.calls, c.pos = none → s.phase.bgNull = true

theorem nonePos_more {s s' : WState M} {d : WCall} (h : NonePos s) (hc : s'.calls = s.calls ++ [d]) (hp : s'.phase = s.phase)
    (hd : d.pos = none → s.phase.bgNull = true) : NonePos s' := by
  intro c hm hn
  rw [hc] at hm
  rw [hp]
  rcases List.mem_append.1 hm with hm | hm
  · exact h c hm hn
  · rw [List.mem_singleton] at hm; subst hm; exact hd hn

theorem nonePos_set {s s' : WState M} {k : Nat} {d : WCall} (h : NonePos s) (hk : s.calls[k]? = some d)
    (hc : s'.calls = s.calls.set k { d with returned := true }) (hp : s'.phase = s.phase) : NonePos s' := by
  intro c hm hn
  rw [hc] at hm
  rw [hp]
  rcases mem_set_cases hm with hm | hm
  · exact h c hm hn
  · subst hm; exact h d (List.mem_iff_getElem?.2 ⟨k, hk⟩) hn

theorem nonePos_tr {s s' : WState M} (ht : Tr s s') (h : NonePos s) : NonePos s' := by
  cases ht with
  | addQ => exact nonePos_more h rfl rfl (fun h => by cases h)
  | addN hb => exact nonePos_more h rfl rfl (fun _ => hb)
  | rmQ => exact nonePos_more h rfl rfl (fun h => by cases h)
  | rmN i hi hb => exact nonePos_more h rfl rfl (fun _ => hb)
  | clrQ => exact nonePos_more h rfl rfl (fun h => by cases h)
  | clrN hb => exact nonePos_more h rfl rfl (fun _ => hb)
  | retAddKeep k i c hk => exact nonePos_set h hk rfl rfl
  | retAddDrop k i c hk => exact nonePos_set h hk rfl rfl
  | retOther k c hk => exact nonePos_set h hk rfl rfl
  | dStart hp => intro c hm hn; have := h c hm hn; rw [hp] at this; cases this
  | dStop p hp => intro c hm hn; rfl
  | dJoin => intro c hm hn; rfl
  | dRet => intro c hm hn; rfl
  | dKeep => exact h
  | dDrop => intro c hm hn; rfl
  | dReap => intro c hm hn; rfl
  | _ => exact h

/-- All invariants together. -/
structure AllInv (s : WState M) : Prop where
  w : WInv s
  x : XInv s
  last : DoneLast s
  npos : NonePos s

theorem allInv_start : AllInv (WState.start : WState M) :=
  ⟨⟨book_start, calls_start, sinv_start, dinv_start⟩, xinv_start, fun p hp => (by simp [WState.start] at hp), fun c hc => (by cases hc)⟩

theorem allInv_step {s s' : WState M} {l : WLabel M} (h : AllInv s) (hs : wStep s l = some s') : AllInv s' := by
  have a' := winv_step h.w hs
  obtain ⟨_, _, ht⟩ := tr_of_step hs
  exact ⟨a', xinv_tr ht h.w.book h.w.calls h.w.deliver a'.book a'.deliver h.x, doneLast_tr ht h.w.book h.last, nonePos_tr ht h.npos⟩

theorem allInv_run {ls : List (WLabel M)} {s : WState M} (h : wRun WState.start ls = some s) : AllInv s :=
  wrun_induct (fun _ _ _ a hs => allInv_step a hs) ls _ s allInv_start h

theorem allInv_from {ls : List (WLabel M)} {s s' : WState M} (h : AllInv s) (hr : wRun s ls = some s') : AllInv s' :=
  wrun_induct (fun _ _ _ a hs => allInv_step a hs) ls _ s' h hr

theorem grows_run {ls : List (WLabel M)} : ∀ {s s' : WState M}, AllInv s → wRun s ls = some s' → Grows s s' := by
  induction ls with
  | nil => intro s s' _ h; cases h; exact grows_refl s
  | cons l ls ih =>
    intro s s' hi h
    rw [wRun] at h
    obtain ⟨u, hu, h⟩ := Option.bind_eq_some_iff.1 h
    obtain ⟨_, _, ht⟩ := tr_of_step hu
    exact grows_trans (grows_tr ht hi.w.sinks) (ih (allInv_step hi hu) h)

theorem wRun_append {a b : List (WLabel M)} : ∀ {s s' : WState M}, wRun s (a ++ b) = some s' → ∃ u, wRun s a = some u ∧ wRun u b = some s' := by
  induction a with
  | nil => intro s s' h; exact ⟨s, rfl, h⟩
  | cons l a ih =>
    intro s s' h
    rw [List.cons_append, wRun] at h
    obtain ⟨u, hu, h⟩ := Option.bind_eq_some_iff.1 h
    obtain ⟨v, hv, h⟩ := ih h
    exact ⟨v, by rw [wRun, hu]; exact hv, h⟩

theorem wRun_append' {a b : List (WLabel M)} : ∀ {s u s' : WState M}, wRun s a = some u → wRun u b = some s' → wRun s (a ++ b) = some s' := by
  induction a with
  | nil => intro s u s' h g; cases h; exact g
  | cons l a ih =>
    intro s u s' h g
    rw [wRun] at h
    obtain ⟨v, hv, h⟩ := Option.bind_eq_some_iff.1 h
    rw [List.cons_append, wRun, hv]
    exact ih h g

/-- The requests of a longer schedule. -/
theorem handed_append {a b : List (WLabel M)} {u s : WState M} (ha : wRun WState.start a = some u) (hb : wRun u b = some s) :
    ∃ t, handed 0 0 (a ++ b) = handed 0 0 a ++ t := by
  have h1 := sub_handed ha
  have h2 := sub_handed (wRun_append' ha hb)
  obtain ⟨t, ht, _⟩ := (grows_run (allInv_run ha) hb).sub
  refine ⟨t.map req, ?_⟩
  rw [← h1, ← h2, ht, List.map_append]

/-! ### The specification again -/

theorem served_append_prefix (l m : List (Req M)) : served l <+: served (l ++ m) := by
  by_cases h : ∃ y ∈ l, y.final = true
  · rw [served_final l m h]; exact List.prefix_refl _
  · have h' : ∀ y ∈ l, y.final = false := by
      intro y hy
      cases hf : y.final
      · rfl
      · exact absurd ⟨y, hy, hf⟩ h
    rw [served_noFinal l m h', served_self l h']
    exact List.prefix_append _ _

theorem gets_mono (i : Nat) (l m : List (Req M)) : gets i l <+: gets i (l ++ m) := by
  obtain ⟨t, ht⟩ := served_append_prefix l m
  rw [gets, gets, ← ht, getsFrom_append]
  exact List.prefix_append _ _

theorem errs_mono (l m : List (Req M)) : errs l <+: errs (l ++ m) := by
  obtain ⟨t, ht⟩ := served_append_prefix l m
  rw [errs, errs, ← ht, errsFrom_append]
  exact List.prefix_append _ _

theorem attached_never {i : Nat} (m : List (Req M)) (hm : .attach i ∉ m) : ∀ l, attached i l = false → attached i (l ++ m) = false := by
  induction m with
  | nil => intro l h; rw [List.append_nil]; exact h
  | cons r m ih =>
    intro l h
    have hr : r.startsFor i = false := by
      cases r <;> simp [Req.startsFor]
      intro hi; subst hi; exact hm (by simp)
    have := ih (fun h => hm (List.mem_cons_of_mem _ h)) (l ++ [r]) (by rw [attached_snoc, h, hr]; rfl)
    rwa [List.append_assoc] at this

theorem getsFrom_never {i : Nat} (m : List (Req M)) (hm : .attach i ∉ m) : ∀ l, attached i l = false → getsFrom i l m = [] := by
  induction m with
  | nil => intro l h; rfl
  | cons r m ih =>
    intro l h
    have h1 : attached i (l ++ [r]) = false := attached_never [r] (fun hx => hm (by rw [List.mem_singleton] at hx; rw [hx]; simp)) l h
    rw [getsFrom, h, ih (fun h => hm (List.mem_cons_of_mem _ h)) _ h1]; rfl

theorem served_sub (l : List (Req M)) : ∀ x ∈ served l, x ∈ l := by
  induction l with
  | nil => intro x h; exact h
  | cons a l ih =>
    intro x h
    rw [served] at h
    split at h
    · rw [List.mem_singleton] at h; rw [h]; simp
    · rcases List.mem_cons.1 h with rfl | h
      · simp
      · exact List.mem_cons_of_mem _ (ih x h)

/-- A sink that is not attached and will not be gets nothing more. -/
theorem gets_never {i : Nat} (l m : List (Req M)) (hl : attached i l = false) (hm : .attach i ∉ m) : gets i (l ++ m) = gets i l := by
  by_cases h : ∃ y ∈ l, y.final = true
  · exact gets_final i l m h
  · have h' : ∀ y ∈ l, y.final = false := by
      intro y hy
      cases hf : y.final
      · rfl
      · exact absurd ⟨y, hy, hf⟩ h
    rw [gets, gets, served_noFinal l m h', served_self l h', getsFrom_append, List.nil_append,
      getsFrom_never _ (fun hx => hm (served_sub _ _ hx)) l hl, List.append_nil]

theorem getsFrom_sublist (i : Nat) (l : List (Req M)) : ∀ pre, (getsFrom i pre l).Sublist (l.flatMap Req.gives) := by
  induction l with
  | nil => intro pre; exact List.Sublist.refl _
  | cons r l ih =>
    intro pre
    rw [getsFrom, List.flatMap_cons]
    refine List.Sublist.append ?_ (ih _)
    split
    · exact List.Sublist.refl _
    · exact List.nil_sublist _

theorem served_prefix (l : List (Req M)) : served l <+: l := by
  induction l with
  | nil => exact List.prefix_refl _
  | cons a l ih =>
    rw [served]
    split
    · exact ⟨l, rfl⟩
    · obtain ⟨t, ht⟩ := ih
      exact ⟨t, by rw [List.cons_append, ht]⟩

theorem flatMap_prefix {α β} {a b : List α} (f : α → List β) (h : a <+: b) : a.flatMap f <+: b.flatMap f := by
  obtain ⟨t, rfl⟩ := h
  rw [List.flatMap_append]; exact List.prefix_append _ _

theorem gets_sublist (i : Nat) (l : List (Req M)) : (gets i l).Sublist (l.flatMap Req.gives) :=
  (getsFrom_sublist i _ _).trans (flatMap_prefix Req.gives (served_prefix l)).sublist

theorem getsFrom_log {i : Nat} (l : List (Req M)) (h : ∀ y ∈ l, y.final = false) : ∀ pre, ∀ x ∈ getsFrom i pre l, ∃ m, x = .log m := by
  induction l with
  | nil => intro pre x hx; cases hx
  | cons r l ih =>
    intro pre x hx
    rw [getsFrom, List.mem_append] at hx
    rcases hx with hx | hx
    · split at hx
      · have := h r (by simp)
        cases r <;> simp [Req.gives, Req.final] at hx this
        exact ⟨_, hx⟩
      · cases hx
    · exact ih (fun y hy => h y (List.mem_cons_of_mem _ hy)) _ x hx

theorem served_cases (l : List (Req M)) : ∃ pre, (∀ y ∈ pre, y.final = false) ∧ (served l = pre ∧ l = pre ∨ ∃ r post, r.final = true ∧ served l = pre ++ [r] ∧ l = pre ++ r :: post) := by
  induction l with
  | nil => exact ⟨[], by simp, Or.inl ⟨rfl, rfl⟩⟩
  | cons a l ih =>
    cases ha : a.final with
    | true => exact ⟨[], by simp, Or.inr ⟨a, l, ha, by rw [served, if_pos ha]; rfl, rfl⟩⟩
    | false =>
      obtain ⟨pre, hp, h⟩ := ih
      refine ⟨a :: pre, ?_, ?_⟩
      · intro y hy
        rcases List.mem_cons.1 hy with rfl | hy
        · exact ha
        · exact hp y hy
      · have hsv : served (a :: l) = a :: served l := by rw [served, ha]; rfl
        rcases h with ⟨h1, h2⟩ | ⟨r, post, h0, h1, h2⟩
        · exact Or.inl ⟨by rw [hsv, h1], by rw [← h2]⟩
        · exact Or.inr ⟨r, post, h0, by rw [hsv, h1]; rfl, by rw [h2]; rfl⟩

/-- Nothing follows a fatal message. -/
theorem gets_fatal_last {i : Nat} {l : List (Req M)} {a b : List (Got M)} {m : M} (h : gets i l = a ++ .fatal m :: b) : b = [] := by
  obtain ⟨pre, hp, h1 | ⟨r, post, h0, h1, h2⟩⟩ := served_cases l
  · obtain ⟨x, hx⟩ := getsFrom_log (i := i) pre hp [] (.fatal m) (by rw [gets, h1.1] at h; rw [h]; simp)
    cases hx
  · rw [gets, h1, getsFrom_append] at h
    have hl := getsFrom_log (i := i) pre hp []
    simp only [getsFrom, List.append_nil, List.nil_append] at h
    generalize getsFrom i [] pre = g at h hl
    have hlen : (if attached i pre then r.gives else []).length ≤ 1 := by
      split
      · cases r <;> simp [Req.gives]
      · simp
    generalize (if attached i pre then r.gives else []) = e at h hlen
    have key : ∀ (g a : List (Got M)), (∀ x ∈ g, ∃ m, x = .log m) → g ++ e = a ++ .fatal m :: b → b = [] := by
      intro g
      induction g with
      | nil =>
        intro a _ h
        rw [List.nil_append] at h
        have := congrArg List.length h
        simp at this
        cases b with
        | nil => rfl
        | cons _ _ => simp at this; omega
      | cons y g ih =>
        intro a hl h
        cases a with
        | nil =>
          obtain ⟨m', hm⟩ := hl y (by simp)
          rw [hm] at h
          cases h
        | cons z a =>
          rw [List.cons_append, List.cons_append] at h
          injection h with _ h
          exact ih a (fun x hx => hl x (List.mem_cons_of_mem _ hx)) h
    exact key g a hl h

end G3.Props
