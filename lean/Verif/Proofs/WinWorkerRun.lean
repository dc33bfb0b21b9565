import Verif.Proofs.WinWorkerSim
import Verif.Props.Worker
import Verif.Spec.WinWorker
/-
Schedules of the worker on Windows.
-/
namespace G3.Props
open G3 G3.Spec

variable {M : Type}

section
variable {exc : M → Bool}

/-! ### The simulation -/

theorem sim_start : SimR exc (YState.start : YState M) WState.start :=
  { wq := rfl, sub := rfl, completed := rfl, wpc := rfl, att := rfl, n := rfl, sk := rfl, calls := .nil, failed := rfl, phase := rfl, ub := rfl,
    pos := by intro p h; cases h
    le := Nat.le_refl _
    cur := Or.inr (Or.inr ⟨[], .idle _, rfl⟩) }

theorem atExit_iff (w : WState M) : atExit w = true ↔ w.wpc = .clearing true ∧ w.att = [] := by
  unfold atExit
  split
  · simp_all
  · next h =>
    constructor
    · intro e; cases e
    · rintro ⟨h1, h2⟩; exact absurd h2 (h h1)

theorem sim_exit {s : YState M} {b : WState M} (h : SimR exc s b) (ho : s.over = false) (h1 : atExit s.w = true) (h2 : s.msg.any exc = true) :
    ∃ bl b', wRun b bl = some b' ∧ SimR exc { s with w := { s.w with wpc := .idle, completed := s.w.completed + 1 }, block := false } b' := by
  obtain ⟨hbu, hbd, hsu, hsd⟩ := sim_alive h ho
  obtain ⟨hw, ha⟩ := (atExit_iff _).1 h1
  rcases h.cur with e | e | ⟨c, hc, hd⟩
  · rw [hw] at e; cases e
  · rw [hw] at e; cases e
  rw [hw] at hc
  generalize eo : s.msg = o at hc
  cases hc with
  | clrF m =>
    rw [eo] at h2
    have e : exc m = true := h2
    have hp' : b.wpc = .clearing false := by rw [h.wpc, hw, eo]; simp [exWpc, e]
    have hl := congrArg List.length hd
    simp only [List.length_drop, List.length_append, List.length_cons, List.length_nil] at hl
    refine by_one (.clrEnd b hp' (by rw [h.att]; exact ha)) ⟨hbu, hbd⟩ hbu (fun _ => rfl)
      { h with wq := ?_, completed := ?_, wpc := rfl, le := ?_, cur := Or.inr (Or.inr ⟨[], .idle _, ?_⟩) }
    · rw [h.wq, hw]; rfl
    · dsimp only
      rw [h.completed, take_succ_of_drop hd, exL_append, exL_single, List.length_append, hw, eo]
      simp [half, e, exT]
    · dsimp only; omega
    · dsimp only; rw [← List.drop_drop, hd]; rfl

theorem over_of_step {w w' : WState M} {l : WLabel M} (h : wStep w l = some w') : (w.ub || w.wpc.isDead) = false := by
  obtain ⟨hu, hd, _⟩ := tr_of_step h
  rw [hu]
  cases e : w.wpc <;> first | rfl | exact absurd e hd

/-- The steps of the worker on Windows, one by one. -/
theorem yStep_cases {s s' : YState M} {l : YLabel M} (h : yStep exc s l = some s') :
    (∃ l' w, wStep s.w l' = some w ∧ ¬ (l' = .work ∧ atExit s.w = true ∧ s.msg.any exc = true) ∧ s'.w = w ∧ s'.msg = heldMsg w s.msg ∧
      s'.block = s.block ∧ ((l = .base l' ∧ (∀ m, l' ≠ .fatal m) ∧ s'.waiting = s.waiting) ∨
        ∃ t m, l = .raise t m ∧ l' = .fatal m ∧ s.waiting t = false ∧ s'.waiting = fun u => decide (u = t) || s.waiting u)) ∨
    (l = .base .work ∧ s.over = false ∧ atExit s.w = true ∧ s.msg.any exc = true ∧
      s' = { s with w := { s.w with wpc := .idle, completed := s.w.completed + 1 }, block := false }) ∨
    (∃ t, l = .resume t ∧ s.over = false ∧ s.waiting t = true ∧ s.block = false ∧ s' = { s with waiting := fun u => decide (u ≠ t) && s.waiting u }) ∨
    (∃ i, l = .sinkResume i ∧ s.over = false ∧ i < s.w.n ∧ (s.w.sk i).blocked = true ∧ s.block = false ∧
      s' = { s with w := { s.w with sk := updSink s.w.sk i fun k => { k with blocked := false } } }) := by
  have hplain : ∀ l', (∀ m, l' ≠ .fatal m) → ¬ (l' = .work ∧ atExit s.w = true ∧ s.msg.any exc = true) → plain s l' = some s' → l = .base l' →
      ∃ l' w, wStep s.w l' = some w ∧ ¬ (l' = .work ∧ atExit s.w = true ∧ s.msg.any exc = true) ∧ s'.w = w ∧ s'.msg = heldMsg w s.msg ∧
      s'.block = s.block ∧ ((l = .base l' ∧ (∀ m, l' ≠ .fatal m) ∧ s'.waiting = s.waiting) ∨
        ∃ t m, l = .raise t m ∧ l' = .fatal m ∧ s.waiting t = false ∧ s'.waiting = fun u => decide (u = t) || s.waiting u) := by
    intro l' hf hx hp hl
    unfold plain at hp
    obtain ⟨w, hw, e⟩ := Option.map_eq_some_iff.1 hp
    subst e
    exact ⟨l', w, hw, hx, rfl, rfl, rfl, Or.inl ⟨hl, hf, rfl⟩⟩
  cases l with
  | base l' =>
    cases l' with
    | fatal m => cases h
    | work =>
      simp only [yStep] at h
      split at h
      · next hc =>
        simp only [Bool.and_eq_true, Bool.not_eq_true'] at hc
        cases h
        exact Or.inr (Or.inl ⟨rfl, hc.1.1, hc.1.2, hc.2, rfl⟩)
      · next hc =>
        refine Or.inl (hplain .work (by simp) ?_ h rfl)
        rintro ⟨_, h1, h2⟩
        apply hc
        have hov : s.over = false := by
          unfold plain at h
          obtain ⟨w, hw, _⟩ := Option.map_eq_some_iff.1 h
          exact over_of_step hw
        rw [hov, h1, h2]; rfl
    | _ => exact Or.inl (hplain _ (by simp) (by simp) h rfl)
  | raise t m =>
    simp only [yStep] at h
    split at h
    · cases h
    · next ht =>
      obtain ⟨s1, h1, e⟩ := Option.map_eq_some_iff.1 h
      unfold plain at h1
      obtain ⟨w, hw, e1⟩ := Option.map_eq_some_iff.1 h1
      subst e1; subst e
      exact Or.inl ⟨.fatal m, w, hw, by simp, rfl, rfl, rfl, Or.inr ⟨t, m, rfl, rfl, by simpa using ht, rfl⟩⟩
  | resume t =>
    simp only [yStep] at h
    split at h
    · next hc =>
      simp only [Bool.and_eq_true, Bool.not_eq_true'] at hc
      cases h
      exact Or.inr (Or.inr (Or.inl ⟨t, rfl, hc.1.1, hc.1.2, hc.2, rfl⟩))
    · cases h
  | sinkResume i =>
    simp only [yStep] at h
    split at h
    · next hc =>
      simp only [Bool.and_eq_true, Bool.not_eq_true', decide_eq_true_eq] at hc
      cases h
      exact Or.inr (Or.inr (Or.inr ⟨i, rfl, hc.1.1.1, hc.1.1.2, hc.1.2, hc.2, rfl⟩))
    · cases h

/-- The simulation does not look at `block` and `waiting`. -/
theorem sim_irrel {s t : YState M} {b : WState M} (h : SimR exc s b) (hw : t.w = s.w) (hm : t.msg = s.msg) : SimR exc t b := by
  obtain ⟨w, bl, wa, m⟩ := t
  cases hw; cases hm
  exact { h with }

/-- At its exit the worker thread can only make the step that `yStep` treats separately; the other threads go on. -/
theorem exit_held {w w' : WState M} {l : WLabel M} (h : wStep w l = some w') (hl : l ≠ .work) : w'.wpc = w.wpc := by
  unfold wStep at h
  split at h
  · cases h
  · cases l with
    | work => exact absurd rfl hl
    | dtor =>
      simp only [dtorStep] at h
      repeat' (split at h)
      all_goals first
        | (cases h; done)
        | (cases h; rfl)
    | ret k =>
      simp only [retStep, clientDrop] at h
      repeat' (split at h)
      all_goals first
        | (cases h; done)
        | (cases h; rfl)
    | add =>
      simp only [addStep, beginCall] at h
      repeat' (split at h)
      all_goals (cases h; rfl)
    | release i =>
      simp only [clientDrop] at h
      repeat' (split at h)
      all_goals first
        | (cases h; done)
        | (cases h; rfl)
        | (injection h with h; subst h; split <;> rfl)
    | _ =>
      simp only [beginCall, sinkPop, sinkFin] at h
      repeat' (split at h)
      all_goals first
        | (cases h; done)
        | (cases h; rfl)
        | (injection h with h; subst h; repeat' split <;> rfl)

theorem sim_xstep {s s' : YState M} {b : WState M} {l : YLabel M} (h : SimR exc s b) (hs : yStep exc s l = some s') (hu : s'.w.ub = false) :
    ∃ bl b', wRun b bl = some b' ∧ SimR exc s' b' := by
  rcases yStep_cases hs with ⟨l', w, hw, hx, e1, e2, e3, _⟩ | ⟨_, ho, h1, h2, e⟩ | ⟨t, _, _, _, _, e⟩ | ⟨i, _, ho, _, _, _, e⟩
  · subst e1
    obtain ⟨_, hd, ht⟩ := tr_of_step hw
    obtain ⟨bl, b', r1, r2⟩ := sim_ystep1 h (over_of_step hw) (fun hp => step_returned hw hp hu) ht hu (by
      intro e ⟨h1, h2⟩
      by_cases hl : l' = .work
      · exact hx ⟨hl, h1, h2⟩
      · exact hd (by rw [← exit_held hw hl, e]))
    exact ⟨bl, b', r1, sim_irrel r2 rfl e2⟩
  · subst e
    exact sim_exit h ho h1 h2
  · subst e
    exact ⟨[], b, rfl, sim_irrel h rfl rfl⟩
  · subst e
    refine ⟨[], b, rfl, { h with sk := ?_ }⟩
    dsimp only
    rw [h.sk]
    funext j
    unfold updSink
    split <;> rfl

theorem yRun_ub {s s' : YState M} {ls : List (YLabel M)} (hu : s.w.ub = true) (h : yRun exc s ls = some s') : ls = [] ∧ s' = s := by
  cases ls with
  | nil => cases h; exact ⟨rfl, rfl⟩
  | cons l ls =>
    exfalso
    simp only [yRun] at h
    cases hl : yStep exc s l with
    | none => rw [hl] at h; cases h
    | some u =>
      have ho : s.over = true := by unfold YState.over; rw [hu]; rfl
      rcases yStep_cases hl with ⟨l', w, hw, _⟩ | ⟨_, ho', _⟩ | ⟨t, _, ho', _⟩ | ⟨i, _, ho', _⟩
      · have := over_of_step hw
        rw [hu] at this; cases this
      all_goals rw [ho] at ho'; cases ho'

theorem sim_xrun (ls : List (YLabel M)) : ∀ {s s' : YState M} {b : WState M}, SimR exc s b → yRun exc s ls = some s' → s'.w.ub = false →
    ∃ bl b', wRun b bl = some b' ∧ SimR exc s' b' := by
  induction ls with
  | nil => intro s s' b h hr _; cases hr; exact ⟨[], b, rfl, h⟩
  | cons l ls ih =>
    intro s s' b h hr hu
    simp only [yRun] at hr
    obtain ⟨u, hl, hr⟩ := Option.bind_eq_some_iff.1 hr
    have huu : u.w.ub = false := by
      cases e : u.w.ub with
      | false => rfl
      | true => obtain ⟨_, rfl⟩ := yRun_ub e hr; rw [e] at hu; cases hu
    obtain ⟨b1, c1, r1, h1⟩ := sim_xstep h hl huu
    obtain ⟨b2, c2, r2, h2⟩ := ih h1 hr hu
    exact ⟨b1 ++ b2, c2, wRun_append' r1 r2, h2⟩

theorem yRun_append {a b : List (YLabel M)} {s s' : YState M} (h : yRun exc s (a ++ b) = some s') :
    ∃ u, yRun exc s a = some u ∧ yRun exc u b = some s' := by
  induction a generalizing s with
  | nil => exact ⟨s, rfl, h⟩
  | cons l a ih =>
    simp only [List.cons_append, yRun] at h ⊢
    cases hl : yStep exc s l with
    | none => rw [hl] at h; cases h
    | some v => rw [hl] at h; exact ih h

theorem yRun_append' {a b : List (YLabel M)} {s u s' : YState M} (h1 : yRun exc s a = some u) (h2 : yRun exc u b = some s') :
    yRun exc s (a ++ b) = some s' := by
  induction a generalizing s with
  | nil => cases h1; exact h2
  | cons l a ih =>
    simp only [List.cons_append, yRun] at h1 ⊢
    cases hl : yStep exc s l with
    | none => rw [hl] at h1; cases h1
    | some v => rw [hl] at h1; exact ih h1

/-! ### The requests of a schedule -/

/-- The step of `Verif.Model.Worker` that a step is. -/
def xProj : YLabel M → Option (WLabel M)
  | .base l => some l
  | .raise _ m => some (.fatal m)
  | _ => none

/-- The requests of the clients, in order. -/
def xHanded (ls : List (YLabel M)) : List (Req M) := handed 0 0 (ls.filterMap xProj)

theorem xHanded_run (ls : List (YLabel M)) : ∀ s s' : YState M, yRun exc s ls = some s' →
    s'.w.sub.map req = s.w.sub.map req ++ handed s.w.n (dcount s.w.phase) (ls.filterMap xProj) := by
  induction ls with
  | nil => intro s s' h; cases h; simp [handed]
  | cons l ls ih =>
    intro s s' h
    simp only [yRun] at h
    obtain ⟨u, hl, h⟩ := Option.bind_eq_some_iff.1 h
    rw [ih u s' h]
    rcases yStep_cases hl with ⟨l', w, hw, _, e1, _, _, e⟩ | ⟨e, _, _, _, e2⟩ | ⟨t, e, _, _, _, e2⟩ | ⟨i, e, _, _, _, _, e2⟩
    · have el : xProj l = some l' := by
        rcases e with ⟨rfl, _⟩ | ⟨t, m, rfl, rfl, _⟩ <;> rfl
      rw [List.filterMap_cons_some el, e1]
      refine (handed_step hw _ ?_).symm
      intro hub
      rw [← e1] at hub
      rw [(yRun_ub hub h).1]; rfl
    · subst e2; rw [e]; rfl
    · subst e2; rw [e]; rfl
    · subst e2; rw [e]; rfl

theorem xsub_handed {ls : List (YLabel M)} {s : YState M} (h : yRun exc YState.start ls = some s) : s.w.sub.map req = xHanded ls := by
  have := xHanded_run ls _ s h
  simpa [YState.start, WState.start, dcount, xHanded] using this

/-! ### The two specifications -/

/-- The requests that a request stands for. -/
def exReq (exc : M → Bool) : Req M → List (Req M)
  | .fatal m => if exc m then [.log m, .detachAll] else [.fatal m]
  | r => [r]

def exReqs (exc : M → Bool) (l : List (Req M)) : List (Req M) := l.flatMap (exReq exc)

theorem req_exT (t : WTask M) : (exT exc t).map req = exReq exc (req t) := by
  cases t with
  | fatal m => simp only [exT, req, exReq]; split <;> rfl
  | _ => rfl

theorem req_exL (l : List (WTask M)) : (exL exc l).map req = exReqs exc (l.map req) := by
  induction l with
  | nil => rfl
  | cons t l ih => rw [exL_cons, List.map_append, ih, req_exT]; rfl

theorem attached_exReqs (i : Nat) (l : List (Req M)) : attached i (exReqs exc l) = attached i l := by
  induction l using List.reverseRecOn with
  | nil => rfl
  | append_singleton l r ih =>
    have e : exReqs exc (l ++ [r]) = exReqs exc l ++ exReq exc r := by simp [exReqs]
    rw [e, attached_snoc]
    cases r with
    | fatal m =>
      simp only [exReq]
      split
      · have : exReqs exc l ++ [Req.log m, .detachAll] = (exReqs exc l ++ [.log m]) ++ [.detachAll] := by simp
        rw [this, attached_snoc]
        simp [Req.endsFor]
      · rw [attached_snoc, ih]
    | _ => simp only [exReq]; rw [attached_snoc, ih]

theorem served_exReqs (l : List (Req M)) : served (exReqs exc l) = exReqs exc (servedX exc l) := by
  induction l with
  | nil => rfl
  | cons r l ih =>
    have e : exReqs exc (r :: l) = exReq exc r ++ exReqs exc l := rfl
    rw [e, servedX]
    cases r with
    | fatal m =>
      cases em : exc m with
      | true => simp [exReq, em, served, Req.final, Req.stops, exReqs]; exact ih
      | false => simp [exReq, em, served, Req.final, Req.stops, exReqs]
    | close => simp [exReq, served, Req.final, Req.stops, exReqs]
    | _ => simp [exReq, served, Req.final, Req.stops, exReqs]; exact ih

theorem getsFrom_exReqs (i : Nat) (l : List (Req M)) : ∀ pre,
    (getsFrom i (exReqs exc pre) (exReqs exc l)).map Got.msg = (getsFrom i pre l).map Got.msg := by
  induction l with
  | nil => intro pre; rfl
  | cons r l ih =>
    intro pre
    have e : exReqs exc (r :: l) = exReq exc r ++ exReqs exc l := rfl
    have e2 : exReqs exc pre ++ exReq exc r = exReqs exc (pre ++ [r]) := by simp [exReqs]
    rw [e, getsFrom_append, e2, List.map_append, ih (pre ++ [r]), getsFrom, List.map_append]
    congr 1
    have ha := attached_exReqs (exc := exc) i pre
    cases r with
    | fatal m =>
      cases em : exc m with
      | true =>
        simp only [exReq, em, if_true, getsFrom, ha, Req.gives, List.append_nil]
        cases attached i pre <;> simp [Got.msg]
      | false =>
        simp [exReq, em, getsFrom, ha]
    | _ => simp only [exReq, getsFrom, ha, List.append_nil]

theorem gets_exReqs (i : Nat) (l : List (Req M)) : (gets i (exReqs exc l)).map Got.msg = (getsX exc i l).map Got.msg := by
  unfold gets getsX
  rw [served_exReqs]
  exact getsFrom_exReqs i _ []

theorem got_exItem (l : List (SItem M)) : ((l.map (exItem exc)).filterMap gotOf).map Got.msg = (l.filterMap gotOf).map Got.msg := by
  induction l with
  | nil => rfl
  | cons x l ih =>
    cases x with
    | fatal m =>
      cases em : exc m <;> simp [exItem, em, gotOf, Got.msg] at ih ⊢ <;> exact ih
    | msg m => simp [exItem, gotOf, Got.msg] at ih ⊢; exact ih
    | call c => exact ih
    | stop => exact ih

theorem received_ex {s : YState M} {b : WState M} (h : SimR exc s b) (i : Nat) :
    (received (b.sk i)).map Got.msg = (received (s.w.sk i)).map Got.msg := by
  rw [h.sk]; exact got_exItem _

/-- The requests of the other side. -/
theorem sim_handed {s : YState M} {b : WState M} {ls : List (YLabel M)} {bl : List (WLabel M)} (h : SimR exc s b) (hr : yRun exc YState.start ls = some s)
    (hb : wRun WState.start bl = some b) : handed 0 0 bl = exReqs exc (xHanded ls) := by
  rw [← sub_handed hb, h.sub, req_exL, xsub_handed hr]

theorem sim_settled {s : YState M} {b : WState M} (h : SimR exc s b) (hs : settled s.w) : settled b := by
  rcases hs with ⟨hw, hq⟩ | hw | hw
  · left; rw [h.wpc, h.wq, hw, hq]; exact ⟨rfl, rfl⟩
  · right; left; rw [h.wpc, hw]; rfl
  · right; right; rw [h.wpc, hw]; rfl

end
end G3.Props
