import Verif.Proofs.WinWorkerInv
/-
C97: logging on Windows after an exception that the program handles itself.

In every theorem `exc` says which messages are reports of exceptions, `ls` is an arbitrary schedule of the clients, the worker thread, the
threads of the sinks and the destructor of the worker, and `xHanded ls` is the list of requests that entered the worker.
-/
namespace G3.Props
open G3 G3.Spec

variable {M : Type} {exc : M → Bool}

/-- The messages that a sink has processed. -/
def seenBy (s : YState M) (i : Nat) : List M := (received (s.w.sk i)).map Got.msg

/-- The messages that the specification gives to a sink. -/
def dueToX (exc : M → Bool) (i : Nat) (l : List (Req M)) : List M := (getsX exc i l).map Got.msg

/-! ### What the sinks and stderr get -/

/-- C97: at every moment a sink has processed an initial part of what the specification gives it: an exception is one message for every sink
that is attached, detaches all of them, and the service goes on. -/
theorem C97_prefix {ls : List (YLabel M)} {s : YState M} (h : yRun exc YState.start ls = some s) (hu : s.w.ub = false) (i : Nat) :
    seenBy s i <+: dueToX exc i (xHanded ls) := by
  obtain ⟨bl, b, hb, hs, _⟩ := xinv_all h hu
  unfold seenBy dueToX
  rw [← received_ex hs, ← gets_exReqs, ← sim_handed hs h hb]
  exact (C02_prefix hb i).map _

/-- C97: once the worker has nothing to do and the queue of the sink is empty the sink has processed everything. -/
theorem C97_complete {ls : List (YLabel M)} {s : YState M} (h : yRun exc YState.start ls = some s) (hu : s.w.ub = false) (hset : settled s.w) (i : Nat)
    (hq : (s.w.sk i).q = []) (hr : (s.w.sk i).running = none) : seenBy s i = dueToX exc i (xHanded ls) := by
  obtain ⟨bl, b, hb, hs, _⟩ := xinv_all h hu
  unfold seenBy dueToX
  rw [← received_ex hs, ← gets_exReqs, ← sim_handed hs h hb]
  rw [C02_complete hb (sim_settled hs hset) i (by rw [hs.sk]; simp [exSink, hq]) (by rw [hs.sk]; simp [exSink, hr])]

/-- C97: the same for stderr. -/
theorem C97_err {ls : List (YLabel M)} {s : YState M} (h : yRun exc YState.start ls = some s) (hu : s.w.ub = false) :
    s.w.err.map toErr <+: errsX exc (xHanded ls) ∧ (settled s.w → s.w.err.map toErr = errsX exc (xHanded ls)) := by
  obtain ⟨bl, b, hb, hs, _, he⟩ := xinv_all h hu
  obtain ⟨h1, h2⟩ := started_served hs hb
  rw [xsub_handed h] at h1 h2
  unfold errInv at he
  rw [he]
  exact ⟨errsFrom_prefix h1, fun hset => by rw [h2 hset]; rfl⟩

/-- The specification, part 1: what a sink gets from a message, and what from an exception. -/
theorem C97_each (i : Nat) (a b : List (Req M)) (m : M) (ha : ∀ r ∈ a, r.stops exc = false) :
    (∃ rest, dueToX exc i (a ++ .log m :: b) = dueToX exc i a ++ (if attached i a then [m] else []) ++ rest) ∧
    (exc m = true → ∃ rest, dueToX exc i (a ++ .fatal m :: b) = dueToX exc i a ++ (if attached i a then [m] else []) ++ rest) := by
  have hs : servedX exc a = a := by have := servedX_nonstop a [] ha; simpa [servedX] using this
  constructor
  · refine ⟨(getsFrom i (a ++ [.log m]) (servedX exc b)).map Got.msg, ?_⟩
    rw [dueToX, dueToX, getsX, getsX, servedX_nonstop _ _ ha, hs, getsFrom_append]
    simp only [servedX, Req.stops, Bool.false_eq_true, if_false, getsFrom, List.nil_append, Req.gives, List.map_append, List.append_assoc]
    cases attached i a <;> rfl
  · intro hm
    refine ⟨(getsFrom i (a ++ [.fatal m]) (servedX exc b)).map Got.msg, ?_⟩
    rw [dueToX, dueToX, getsX, getsX, servedX_nonstop _ _ ha, hs, getsFrom_append]
    simp only [servedX, Req.stops, hm, Bool.not_true, Bool.false_eq_true, if_false, getsFrom, List.nil_append, Req.gives, List.map_append, List.append_assoc]
    cases attached i a <;> rfl

/-- The specification, part 2: an exception detaches every sink, and only `addSink` attaches one. -/
theorem C97_detaches (i : Nat) (a b : List (Req M)) (m : M) (hb : .attach i ∉ b) : attached i (a ++ .fatal m :: b) = false := by
  cases h : attached i (a ++ .fatal m :: b) with
  | false => rfl
  | true =>
    obtain ⟨p, q, e, hq⟩ := (attached_iff _ _).1 h
    exfalso
    rcases List.append_eq_append_iff.1 e with ⟨c, e1, e2⟩ | ⟨c, e1, e2⟩
    · cases c with
      | nil => cases e2
      | cons x c => rw [List.cons_append] at e2; cases e2; exact hb (by simp)
    · cases c with
      | nil => cases e2
      | cons x c =>
        rw [List.cons_append] at e2
        injection e2 with e3 e4
        have := hq (.fatal m) (by rw [e4]; simp)
        cases this

theorem getsFrom_detached (i : Nat) (b : List (Req M)) : ∀ pre, attached i pre = false → .attach i ∉ b → getsFrom i pre b = [] := by
  induction b with
  | nil => intro pre _ _; rfl
  | cons r b ih =>
    intro pre hp hb
    rw [getsFrom, hp, ih (pre ++ [r]) ?_ (fun hm => hb (List.mem_cons_of_mem _ hm))]
    · rfl
    · rw [attached_snoc, hp]
      cases r with
      | attach j =>
        by_cases e : j = i
        · subst e; simp at hb
        · simp [Req.startsFor, e]
      | _ => simp [Req.startsFor]

/-- C97: after an exception a sink that is not added again gets nothing any more: what is logged then reaches no sink of before. -/
theorem C97_lost {ls : List (YLabel M)} {s : YState M} (h : yRun exc YState.start ls = some s) (hu : s.w.ub = false) {a b : List (Req M)} {m : M}
    (hx : xHanded ls = a ++ .fatal m :: b) (i : Nat) (hb : .attach i ∉ b) : seenBy s i <+: dueToX exc i (a ++ [.fatal m]) := by
  refine (C97_prefix h hu i).trans ?_
  rw [hx]
  unfold dueToX getsX
  refine List.IsPrefix.map _ ?_
  have e : a ++ Req.fatal m :: b = (a ++ [.fatal m]) ++ b := by simp
  have hd := C97_detaches i a [] m (by simp)
  rw [e]
  generalize a ++ [Req.fatal m] = l at hd
  by_cases hl : ∀ r ∈ l, r.stops exc = false
  · have hs : servedX exc l = l := by have := servedX_nonstop l [] hl; simpa [servedX] using this
    rw [servedX_nonstop _ _ hl, hs, getsFrom_append, List.nil_append, getsFrom_detached i _ l hd ?_, List.append_nil]
    · exact List.prefix_refl _
    intro hm
    have : ∀ c : List (Req M), (servedX exc c).Sublist c := by
      intro c
      induction c with
      | nil => exact .slnil
      | cons r c ih =>
        rw [servedX]
        split
        · exact List.Sublist.cons_cons _ (List.nil_sublist _)
        · exact List.Sublist.cons_cons _ ih
    exact hb ((this b).subset hm)
  · have : ∀ c : List (Req M), (¬ ∀ r ∈ c, r.stops exc = false) → servedX exc (c ++ b) = servedX exc c := by
      intro c
      induction c with
      | nil => intro hc; exact absurd (by simp) hc
      | cons r c ih =>
        intro hc
        rw [List.cons_append, servedX, servedX]
        cases hr : r.stops exc with
        | true => rfl
        | false =>
          rw [if_neg (by simp), if_neg (by simp), ih]
          intro hall
          apply hc
          intro x hx
          rcases List.mem_cons.1 hx with rfl | hx
          · exact hr
          · exact hall x hx
    rw [this l hl]
    exact List.prefix_refl _

/-! ### The end of the process -/

/-- C97: when the worker has nothing to do, the process has ended exactly if a fatal event that is no exception was served. -/
theorem C97_process {ls : List (YLabel M)} {s : YState M} (h : yRun exc YState.start ls = some s) (hu : s.w.ub = false) (hset : settled s.w) :
    s.w.wpc = .dead ↔ ∃ a m b, xHanded ls = a ++ .fatal m :: b ∧ exc m = false ∧ ∀ r ∈ a, r.stops exc = false := by
  obtain ⟨bl, b, hb, hs, _⟩ := xinv_all h hu
  constructor
  · intro hd
    obtain ⟨m, r, h1, h2⟩ := dead_task hs hb hd
    refine ⟨(s.w.sub.take s.w.completed).map req, m, r.map req, ?_, h2, done_nonstop hs hb (by rw [hd]; simp)⟩
    rw [← xsub_handed h]
    conv_lhs => rw [← List.take_append_drop s.w.completed s.w.sub, h1, List.map_append]
    rfl
  · rintro ⟨a, m, c, hx, hm, ha⟩
    have h2 := (started_served hs hb).2 hset
    have hsv : servedX exc (s.w.sub.map req) = a ++ [.fatal m] := by
      rw [xsub_handed h, hx, servedX_nonstop _ _ ha, servedX]
      simp [Req.stops, hm]
    rw [hsv] at h2
    rcases hset with ⟨hw, _⟩ | hw | hw
    · exfalso
      have hst : started s.w = s.w.completed := by unfold started; rw [hw]; rfl
      rw [hst] at h2
      have := done_nonstop hs hb (by rw [hw]; simp) (.fatal m) (by rw [h2]; simp)
      simp [Req.stops, hm] at this
    · exfalso
      obtain ⟨pre, hp, _⟩ := done_ended hs hb hw
      have hst : started s.w = s.w.completed := by unfold started; rw [hw]; rfl
      rw [hst, hp] at h2
      have := (List.append_inj' h2 rfl).2
      cases this
    · exact hw

/-- C97: as long as no exception is raised the worker is that of the other platforms, and threads that raise a fatal event never continue. -/
theorem C97_same {ls : List (YLabel M)} {s : YState M} (h : yRun exc YState.start ls = some s)
    (hx : ∀ m, .fatal m ∈ xHanded ls → exc m = false) :
    wRun WState.start (ls.filterMap xProj) = some s.w ∧ s.block = true := by
  have key : ∀ (ls : List (YLabel M)) {s s' : YState M} {bl : List (WLabel M)}, wRun WState.start bl = some s.w → s.block = true → s.msg.any exc = false →
      yRun exc s ls = some s' → (∀ m, .fatal m ∈ s'.w.sub → exc m = false) →
      wRun WState.start (bl ++ ls.filterMap xProj) = some s'.w ∧ s'.block = true := by
    intro ls
    induction ls with
    | nil => intro s s' bl hb h1 _ hr _; cases hr; simpa using ⟨hb, h1⟩
    | cons l ls ih =>
      intro s s' bl hb h1 h2 hr hm
      simp only [yRun] at hr
      obtain ⟨u, hl, hr⟩ := Option.bind_eq_some_iff.1 hr
      rcases yStep_cases hl with ⟨l', w, hw, _, e1, e2, e3, e⟩ | ⟨_, _, _, h3, _⟩ | ⟨t, _, _, _, h3, _⟩ | ⟨i, _, _, _, _, h3, _⟩
      · have el : xProj l = some l' := by
          rcases e with ⟨rfl, _⟩ | ⟨t, m, rfl, rfl, _⟩ <;> rfl
        have hbu : wRun WState.start (bl ++ [l']) = some u.w := by
          rw [e1]
          exact wRun_append' hb (by simp only [wRun, hw, Option.bind_some])
        have := ih hbu (by rw [e3]; exact h1) ?_ hr hm
        · rw [List.filterMap_cons_some el]
          simpa using this
        · rw [e2]
          unfold heldMsg
          split
          · next m r hp =>
            have ht := (allInv_run hbu).w.book.task
            rw [e1, hp] at ht
            have hmem : WTask.fatal m ∈ u.w.sub := by rw [e1]; exact List.mem_iff_getElem?.2 ⟨_, ht⟩
            obtain ⟨t, htt, _⟩ := (xrun_grow ls hr).sub
            have := hm m (by rw [htt]; exact List.mem_append_left _ hmem)
            simp [this]
          · exact h2
      · rw [h2] at h3; cases h3
      · rw [h1] at h3; cases h3
      · rw [h1] at h3; cases h3
  have := key ls (bl := []) (s := YState.start) rfl rfl rfl h (by
    intro m hm
    apply hx
    rw [← xsub_handed h]
    exact List.mem_map.2 ⟨_, hm, rfl⟩)
  simpa using this

/-! ### The threads that raise fatal events -/

/-- C97: a thread that raises a fatal event hands it to the worker and waits; other threads are not affected. A thread that waits does not
raise another. -/
theorem C97_raise (s s' : YState M) (t : Nat) (m : M) : yStep exc s (.raise t m) = some s' ↔
    s.waiting t = false ∧ wStep s.w (.fatal m) = some s'.w ∧ s'.waiting t = true ∧ (∀ v, v ≠ t → s'.waiting v = s.waiting v) ∧ s'.block = s.block ∧
    s'.msg = heldMsg s'.w s.msg := by
  constructor
  · intro h
    rcases yStep_cases h with ⟨l', w, hw, _, e1, e2, e3, e⟩ | ⟨e, _⟩ | ⟨t', e, _⟩ | ⟨i, e, _⟩
    · rcases e with ⟨e, _⟩ | ⟨t', m', e, rfl, h1, h2⟩
      · cases e
      · cases e
        refine ⟨h1, by rw [e1]; exact hw, by rw [h2]; simp, ?_, e3, by rw [e2, e1]⟩
        intro v hv
        rw [h2]; simp [hv]
    · cases e
    · cases e
    · cases e
  · rintro ⟨h1, h2, h3, h4, h5, h6⟩
    obtain ⟨w, bl, wa, ms⟩ := s'
    simp only at h2 h3 h4 h5 h6
    simp only [yStep, h1, plain, h2, Option.map_some, h5, h6, Bool.false_eq_true, if_false, Option.some.injEq, YState.mk.injEq, true_and, and_true]
    funext v
    by_cases hv : v = t
    · subst hv; simp [h3]
    · simp [hv, h4 v hv]

/-- A request of an exception that has been dealt with. -/
def handledOne (exc : M → Bool) (ls : List (YLabel M)) (s : YState M) : Prop :=
  ∃ p m, p < s.w.completed ∧ (xHanded ls)[p]? = some (.fatal m) ∧ exc m = true

theorem block_handled {ls : List (YLabel M)} {s : YState M} (h : yRun exc YState.start ls = some s) (ho : s.over = false) :
    s.block = false ↔ handledOne exc ls s := by
  have hu : s.w.ub = false := by unfold YState.over at ho; simp only [Bool.or_eq_false_iff] at ho; exact ho.1
  obtain ⟨bl, b, hb, hs, hbl, _⟩ := xinv_all h hu
  rw [hbl]
  unfold handledOne excDone
  rw [← xsub_handed h]
  refine exists_congr fun p => exists_congr fun m => and_congr_right fun _ => and_congr_left fun _ => ?_
  rw [List.getElem?_map]
  cases e : s.w.sub[p]? with
  | none => simp
  | some t => cases t <;> simp [req]

/-- C97: a thread that has raised a fatal event continues exactly from the moment on at which the worker has dealt with some exception -
with one, whichever and whoever raised it. Nothing else changes when it does. -/
theorem C97_released {ls : List (YLabel M)} {s : YState M} (h : yRun exc YState.start ls = some s) (ho : s.over = false) {t : Nat} (hw : s.waiting t = true) :
    ((∃ s', yStep exc s (.resume t) = some s') ↔ ∃ p m, p < s.w.completed ∧ (xHanded ls)[p]? = some (.fatal m) ∧ exc m = true) ∧
    (∀ s', yStep exc s (.resume t) = some s' → s'.w = s.w ∧ s'.block = s.block ∧ s'.waiting t = false ∧ ∀ v, v ≠ t → s'.waiting v = s.waiting v) := by
  constructor
  · refine Iff.trans ?_ (block_handled h ho)
    simp only [yStep, ho, hw]
    cases s.block <;> simp
  · intro s' hr
    rcases yStep_cases hr with ⟨l', w, _, _, _, _, _, e⟩ | ⟨e, _⟩ | ⟨t', e, _, _, _, e'⟩ | ⟨i, e, _⟩
    · rcases e with ⟨e, _⟩ | ⟨_, _, e, _⟩ <;> cases e
    · cases e
    · cases e; subst e'
      exact ⟨rfl, rfl, by simp, fun v hv => by simp [hv]⟩
    · cases e

/-- C97: the same for the thread of a sink whose code has raised a fatal event. -/
theorem C97_sink_released {ls : List (YLabel M)} {s : YState M} (h : yRun exc YState.start ls = some s) (ho : s.over = false) {i : Nat} (hi : i < s.w.n)
    (hw : (s.w.sk i).blocked = true) :
    ((∃ s', yStep exc s (.sinkResume i) = some s') ↔ ∃ p m, p < s.w.completed ∧ (xHanded ls)[p]? = some (.fatal m) ∧ exc m = true) ∧
    (∀ s', yStep exc s (.sinkResume i) = some s' → s' = { s with w := { s.w with sk := updSink s.w.sk i fun k => { k with blocked := false } } }) := by
  constructor
  · refine Iff.trans ?_ (block_handled h ho)
    simp only [yStep, ho, hw, hi]
    cases s.block <;> simp
  · intro s' hr
    rcases yStep_cases hr with ⟨l', w, _, _, _, _, _, e⟩ | ⟨e, _⟩ | ⟨t', e, _⟩ | ⟨i, e, _, _, _, _, e'⟩
    · rcases e with ⟨e, _⟩ | ⟨_, _, e, _⟩ <;> cases e
    · cases e
    · cases e
    · cases e; exact e'

/-- A finished task that gives the sinks nothing and detaches sink i. -/
theorem end_done {ls : List (WLabel M)} {s : WState M} (h : wRun WState.start ls = some s) {p i : Nat} (hpc : p < s.completed) {t : WTask M}
    (ht : s.sub[p]? = some t) (hg : (req t).gives = []) (he : (req t).endsFor i = true) (ha : .add i ∉ s.sub.drop p) (hn : i < s.n) :
    i ∉ s.att ∧ gets i (handed 0 0 ls) = gets i ((handed 0 0 ls).take p) ∧
    (¬ clientUses s i → s.wpc ≠ .rmHeld i → s.wpc ≠ .rmWait i →
      (s.sk i).destroyed = true ∧ received (s.sk i) = gets i ((handed 0 0 ls).take p)) := by
  have hi := allInv_run h
  obtain ⟨h1, h2⟩ := end_final h hpc ht hg he ha
  have hna : i ∉ s.att := by
    intro hm
    have := hi.x.attSub i (Or.inl hm)
    rw [h1 _ hpc] at this; cases this
  refine ⟨hna, h2, ?_⟩
  intro hc hw1 hw2
  have hcl : ¬ clearsNow s i := by
    intro hcl
    have := hi.x.attSub i (Or.inr hcl)
    rw [h1 _ hpc] at this; cases this
  have hh : s.wpc.holds i = false := by
    cases hw : s.wpc <;> simp [WPc.holds]
    intro e; subst e; exact hw1 hw
  have hwt : waitsOn s i = false := by
    unfold waitsOn
    have a1 : pcWaits i s.wpc = false := by
      cases hw : s.wpc <;> simp [pcWaits]
      · intro e; subst e; exact hw2 hw
      · intro e; subst e; exact hcl (Or.inl ⟨_, hw⟩)
    have a2 : phaseWaits i s.phase = false := by
      cases hw : s.phase <;> simp [phaseWaits]
      intro e; subst e; exact hcl (Or.inr hw)
    rw [a1, a2]; rfl
  obtain ⟨d1, d2⟩ := destroyed_of hi hn hna hc hh hwt
  refine ⟨d1, ?_⟩
  rw [received_exited hi d2, ← h2, ← sub_handed h, reqs_split s (started s)]
  have hgot := hi.w.deliver.got i
  have hpe : pend i s.wpc = [] := by
    cases hw : s.wpc with
    | sending x r =>
      have : i ∉ r := fun hm => hna ((hi.w.sinks.rest x r hw).1 i hm)
      simp [pend, this]
    | _ => rfl
  rw [hpe, List.append_nil] at hgot
  have hst : p < started s := by unfold started; omega
  rw [hgot]
  refine (gets_never _ _ (h1 _ hst) ?_).symm
  intro hm
  obtain ⟨x, hx, hxe⟩ := List.mem_map.1 hm
  cases x <;> cases hxe
  refine ha ?_
  have : s.sub.drop (started s) = (s.sub.drop p).drop (started s - p) := by rw [List.drop_drop]; congr 1; omega
  rw [this] at hx
  exact List.mem_of_mem_drop hx

theorem exL_add {l : List (WTask M)} {i : Nat} (h : .add i ∈ exL exc l) : .add i ∈ l := by
  obtain ⟨t, ht, hx⟩ := List.mem_flatMap.1 h
  cases t with
  | fatal m => simp only [exT] at hx; split at hx <;> simp at hx
  | add j => simp [exT] at hx; subst hx; exact ht
  | _ => simp [exT] at hx

theorem gets_snoc_nothing (i : Nat) (l : List (Req M)) (r : Req M) (h : r.gives = []) : gets i (l ++ [r]) = gets i l := by
  by_cases hf : ∃ y ∈ l, y.final = true
  · exact gets_final i l [r] hf
  · rw [gets_snoc i l r (fun y hy => by cases e : y.final with | false => rfl | true => exact absurd ⟨y, hy, e⟩ hf), h]
    simp

/-- A finished exception. -/
theorem exc_done {ls : List (YLabel M)} {s : YState M} (h : yRun exc YState.start ls = some s) (hu : s.w.ub = false) {p i : Nat} {m : M}
    (hp : p < s.w.completed) (ht : s.w.sub[p]? = some (.fatal m)) (hm : exc m = true) (ha : .add i ∉ s.w.sub.drop p) (hn : i < s.w.n) :
    i ∉ s.w.att ∧ (¬ clientUses s.w i → s.w.wpc ≠ .rmHeld i → s.w.wpc ≠ .rmWait i →
      (s.w.sk i).destroyed = true ∧ seenBy s i = dueToX exc i ((xHanded ls).take (p + 1))) := by
  obtain ⟨bl, b, hb, hs, _⟩ := xinv_all h hu
  have hlen := (List.getElem?_eq_some_iff.1 ht).1
  have hdr : s.w.sub.drop p = .fatal m :: s.w.sub.drop (p + 1) := by
    rw [List.drop_eq_getElem_cons hlen, (List.getElem?_eq_some_iff.1 ht).2]
  have htk : s.w.sub.take (p + 1) = s.w.sub.take p ++ [.fatal m] := (take_lemma hdr).2.1
  have hsub : b.sub = exL exc (s.w.sub.take p) ++ ([.save m, .clear] ++ exL exc (s.w.sub.drop (p + 1))) := by
    rw [hs.sub]
    conv_lhs => rw [← List.take_append_drop p s.w.sub]
    rw [exL_append, hdr, exL_cons]
    simp [exT, hm]
  have hlt : (exL exc (s.w.sub.take (p + 1))).length = (exL exc (s.w.sub.take p)).length + 2 := by
    rw [htk, exL_append, exL_single]; simp [exT, hm]
  have hle : (exL exc (s.w.sub.take (p + 1))).length ≤ b.completed := by
    rw [hs.completed]
    rcases Nat.lt_or_ge (p + 1) s.w.completed with hl | hl
    · have := exL_mono (exc := exc) hl hs.le; omega
    · have : p + 1 = s.w.completed := by omega
      rw [this]; omega
  have hwpc : ∀ q, (q = .rmHeld i ∨ q = .rmWait i) → b.wpc = q → s.w.wpc = q := by
    intro q hq e
    rw [hs.wpc] at e
    generalize s.w.wpc = r at e
    unfold exWpc at e
    split at e
    · split at e <;> rcases hq with rfl | rfl <;> cases e
    all_goals first | exact e | (rcases hq with rfl | rfl <;> cases e)
  obtain ⟨d1, _, d2⟩ := end_done hb (p := (exL exc (s.w.sub.take p)).length + 1) (i := i) (by omega) (t := .clear)
    (by rw [hsub, List.getElem?_append_right (by omega)]; simp) rfl rfl
    (by
      rw [hsub, ← List.drop_drop, List.drop_left]
      intro hmem
      simp only [List.cons_append, List.nil_append, List.drop_succ_cons, List.drop_zero, List.mem_cons] at hmem
      rcases hmem with hmem | hmem
      · cases hmem
      · exact ha (by rw [hdr]; exact List.mem_cons_of_mem _ (exL_add hmem)))
    (by rw [hs.n]; exact hn)
  refine ⟨by rw [← hs.att]; exact d1, ?_⟩
  intro hc h1 h2
  have huse : ¬ clientUses b i := by
    unfold clientUses at hc ⊢
    rw [hs.sk, callsR_adding hs.calls]
    exact hc
  obtain ⟨c1, c2⟩ := d2 huse (fun e => h1 (hwpc _ (Or.inl rfl) e)) (fun e => h2 (hwpc _ (Or.inr rfl) e))
  refine ⟨by rw [hs.sk] at c1; exact c1, ?_⟩
  unfold seenBy
  rw [← received_ex hs, c2, ← reqs_handed hb]
  unfold reqs dueToX
  rw [← xsub_handed h, ← List.map_take, htk, ← gets_exReqs, ← req_exL, exL_append, exL_single]
  have e1 : b.sub.take ((exL exc (s.w.sub.take p)).length + 1) = exL exc (s.w.sub.take p) ++ [.save m] := by
    rw [hsub, List.take_append, List.take_of_length_le (by omega)]
    congr 1
    rw [show (exL exc (s.w.sub.take p)).length + 1 - (exL exc (s.w.sub.take p)).length = 1 by omega]
    rfl
  have e2 : exT exc (.fatal m) = [.save m, .clear] := by simp [exT, hm]
  rw [e1, e2]
  have e3 : exL exc (s.w.sub.take p) ++ [WTask.save m, .clear] = (exL exc (s.w.sub.take p) ++ [.save m]) ++ [.clear] := by simp
  rw [e3, List.map_append (l₂ := [WTask.clear])]
  congr 1
  exact (gets_snoc_nothing i _ _ rfl).symm

/-- C97: the thread that raises the first exception continues only after its report, and everything that was logged before it, has been
processed by every sink that no client keeps alive; these sinks have been destroyed. -/
theorem C97_waits_partial {l1 l2 : List (YLabel M)} {u s s' : YState M} {t : Nat} {m : M} (h1 : yRun exc YState.start l1 = some u)
    (hb : u.w.phase.bgNull = false) (hx : ∀ m', .fatal m' ∈ xHanded l1 → exc m' = false) (h2 : yRun exc u (.raise t m :: l2) = some s)
    (hr : yStep exc s (.resume t) = some s') (i : Nat) (hi : i < u.w.n) :
    i ∉ s.w.att ∧ (¬ clientUses s.w i → s.w.wpc ≠ .rmHeld i → s.w.wpc ≠ .rmWait i →
      (s.w.sk i).destroyed = true ∧ seenBy s i = dueToX exc i (xHanded l1 ++ [.fatal m])) := by
  have hrun := yRun_append' h1 h2
  obtain ⟨ho, hwt⟩ : s.over = false ∧ s.waiting t = true := by
    rcases yStep_cases hr with ⟨l', w, _, _, _, _, _, e⟩ | ⟨e, _⟩ | ⟨t', e, ho, hw, _⟩ | ⟨i, e, _⟩
    · rcases e with ⟨e, _⟩ | ⟨_, _, e, _⟩ <;> cases e
    · cases e
    · cases e; exact ⟨ho, hw⟩
    · cases e
  have hu : s.w.ub = false := by unfold YState.over at ho; simp only [Bool.or_eq_false_iff] at ho; exact ho.1
  rw [yRun] at h2
  obtain ⟨v, hv, h2⟩ := Option.bind_eq_some_iff.1 h2
  have hvs : v.w.sub = u.w.sub ++ [.fatal m] ∧ v.w.n = u.w.n := by
    rcases yStep_cases hv with ⟨l', w, hw, _, e1, _, _, e⟩ | ⟨e, _⟩ | ⟨t', e, _⟩ | ⟨i, e, _⟩
    · rcases e with ⟨e, hf, _⟩ | ⟨t', m', e, rfl, _⟩
      · cases e
      · cases e
        unfold wStep at hw
        split at hw
        · cases hw
        · simp only [hb, Bool.false_eq_true, if_false, Option.some.injEq] at hw
          rw [e1, ← hw]; exact ⟨rfl, rfl⟩
    · cases e
    · cases e
    · cases e
  have hg := xrun_grow l2 h2
  obtain ⟨r, hrr, hadd⟩ := hg.sub
  rw [hvs.1, List.append_assoc] at hrr
  have hsm : (xHanded l1).length = u.w.sub.length := by rw [← xsub_handed h1, List.length_map]
  have hh : xHanded (l1 ++ .raise t m :: l2) = xHanded l1 ++ .fatal m :: r.map req := by
    rw [← xsub_handed hrun, hrr, ← xsub_handed h1]; simp [req]
  obtain ⟨q, m', hq, hq1, hq2⟩ := (C97_released hrun ho hwt).1.1 ⟨s', hr⟩
  have hpq : u.w.sub.length ≤ q := by
    rcases Nat.lt_or_ge q u.w.sub.length with hl | hl
    · rw [hh, List.getElem?_append_left (by omega)] at hq1
      rw [hx m' (List.mem_iff_getElem?.2 ⟨q, hq1⟩)] at hq2; cases hq2
    · exact hl
  by_cases hm : exc m = true
  · obtain ⟨d1, d2⟩ := exc_done hrun hu (p := u.w.sub.length) (i := i) (m := m) (by omega) (by rw [hrr]; simp) hm
      (by
        rw [hrr, List.drop_left]
        intro hmem
        rcases List.mem_append.1 hmem with hmem | hmem
        · simp at hmem
        · have := hadd i hmem; omega)
      (by have := hg.n; omega)
    refine ⟨d1, ?_⟩
    rw [hh] at d2
    have : (xHanded l1 ++ .fatal m :: r.map req).take (u.w.sub.length + 1) = xHanded l1 ++ [.fatal m] := by
      rw [List.take_append, List.take_of_length_le (by omega), hsm, Nat.add_sub_cancel_left]; rfl
    rwa [this] at d2
  · exfalso
    obtain ⟨bl, b, hbb, hs, _⟩ := xinv_all hrun hu
    have hdead : s.w.wpc.isDead = false := by unfold YState.over at ho; simp only [Bool.or_eq_false_iff] at ho; exact ho.2
    have hstop : (Req.fatal m).stops exc = true := by simpa [Req.stops] using hm
    by_cases he : s.w.wpc = .ended
    · obtain ⟨pre, hp, hn⟩ := done_ended hs hbb he
      have hmem : Req.fatal m ∈ pre ++ [.close] := by
        rw [← hp, List.map_take, xsub_handed hrun, hh]
        refine List.mem_iff_getElem?.2 ⟨u.w.sub.length, ?_⟩
        rw [List.getElem?_take_of_lt (by omega), List.getElem?_append_right (by omega), hsm, Nat.sub_self]; rfl
      rcases List.mem_append.1 hmem with hmem | hmem
      · rw [hn _ hmem] at hstop; cases hstop
      · simp at hmem
    · have := done_nonstop hs hbb he (.fatal m) (by
        rw [List.map_take, xsub_handed hrun, hh]
        refine List.mem_iff_getElem?.2 ⟨u.w.sub.length, ?_⟩
        rw [List.getElem?_take_of_lt (by omega), List.getElem?_append_right (by omega), hsm, Nat.sub_self]; rfl)
      rw [this] at hstop; cases hstop

/-- C97: once an exception has been dealt with, a thread that raises a fatal event - an exception or not - may continue at once, whatever
the worker has done about it. -/
theorem C97_returns {ls : List (YLabel M)} {s : YState M} (h : yRun exc YState.start ls = some s) (ho : s.over = false) (hb : s.w.phase.bgNull = false)
    {p : Nat} {m' : M} (hp : p < s.w.completed) (hm' : (xHanded ls)[p]? = some (.fatal m')) (hx : exc m' = true) (t : Nat) (ht : s.waiting t = false) (m : M) :
    ∃ s1 s2, yStep exc s (.raise t m) = some s1 ∧ yStep exc s1 (.resume t) = some s2 ∧ s2.w.completed = s.w.completed ∧ s2.w.err = s.w.err ∧
      s2.w.sk = s.w.sk ∧ s2.waiting t = false := by
  obtain ⟨hu, hd⟩ : s.w.ub = false ∧ s.w.wpc.isDead = false := by unfold YState.over at ho; simpa using ho
  obtain ⟨bl, b, _, hs, hbl, _⟩ := xinv_all h hu
  have hblock : s.block = false := by
    rw [hbl]
    refine ⟨p, m', hp, ?_, hx⟩
    rw [← xsub_handed h, List.getElem?_map] at hm'
    cases e : s.w.sub[p]? with
    | none => rw [e] at hm'; cases hm'
    | some x => rw [e] at hm'; cases x <;> simp [req] at hm'; rw [hm']
  let s1 : YState M := ⟨pushTask s.w (.fatal m), s.block, (fun v => decide (v = t) || s.waiting v), heldMsg (pushTask s.w (.fatal m)) s.msg⟩
  have h1 : yStep exc s (.raise t m) = some s1 := by
    simp [yStep, ht, plain, step_eq hu hd, hb, s1]
  have ho' : s1.over = false := by unfold YState.over; simp [s1, pushTask, hu, hd]
  refine ⟨s1, { s1 with waiting := fun v => decide (v ≠ t) && s1.waiting v }, h1, ?_, rfl, rfl, rfl, by simp⟩
  have hw : s1.waiting t = true := by simp [s1]
  have hbl1 : s1.block = false := hblock
  simp only [yStep, ho', hw, hbl1]
  rfl

/-- The worker thread waits for the end of the thread of sink i, and that thread waits in the loop g3log.cpp:227-229. -/
structure Stuck (w : WState M) (i : Nat) (f : Bool) : Prop where
  wpc : w.wpc = .clrWait i f
  n : i < w.n
  blocked : (w.sk i).blocked = true
  exited : (w.sk i).exited = false

theorem stuckX_of {w w' : WState M} {i : Nat} {f : Bool} (h : Stuck w i f) (h1 : w'.wpc = w.wpc) (h2 : w.n ≤ w'.n)
    (h3 : w'.sk i = w.sk i ∨ ((w'.sk i).blocked = true ∧ (w'.sk i).exited = false)) : Stuck w' i f := by
  refine ⟨by rw [h1]; exact h.wpc, Nat.lt_of_lt_of_le h.n h2, ?_, ?_⟩
  · rcases h3 with h3 | h3
    · rw [h3]; exact h.blocked
    · exact h3.1
  · rcases h3 with h3 | h3
    · rw [h3]; exact h.exited
    · exact h3.2

/-- Most changes of a sink leave its thread where it is. -/
theorem keeps_upd {w : WState M} {i : Nat} (j : Nat) (g : SinkSt M → SinkSt M)
    (hg : j = i → (g (w.sk i)).blocked = true ∧ (g (w.sk i)).exited = false) :
    updSink w.sk j g i = w.sk i ∨ ((updSink w.sk j g i).blocked = true ∧ (updSink w.sk j g i).exited = false) := by
  unfold updSink
  split
  · next e => exact Or.inr (hg e.symm)
  · exact Or.inl rfl

theorem stuck_tr {w w' : WState M} {i : Nat} {f : Bool} (ht : Tr w w') (h : Stuck w i f) : Stuck w' i f := by
  have hb := h.blocked
  have he := h.exited
  have hn := h.n
  cases ht with
  | addQ => (refine stuckX_of h rfl (Nat.le_succ _) ?_; dsimp only; exact keeps_upd _ _ (fun e => absurd e (by omega)))
  | addN => (refine stuckX_of h rfl (Nat.le_succ _) ?_; dsimp only; exact keeps_upd _ _ (fun e => absurd e (by omega)))
  | clrReap j f' hp hx =>
    have hw := h.wpc
    rw [hp] at hw; cases hw
    rw [he] at hx; cases hx
  | sFinStop j hj hb' hr =>
    (refine stuckX_of h rfl (Nat.le_refl _) ?_; dsimp only; exact keeps_upd _ _ (fun e => by subst e; rw [hb] at hb'; cases hb'))
  | sFin j x hj hb' hr =>
    (refine stuckX_of h rfl (Nat.le_refl _) ?_; dsimp only; exact keeps_upd _ _ (fun e => by subst e; rw [hb] at hb'; cases hb'))
  | sFatal j m => (refine stuckX_of h rfl (Nat.le_refl _) ?_; dsimp only; exact keeps_upd _ _ (fun _ => ⟨rfl, he⟩))
  | _ =>
    first
      | exact stuckX_of h rfl (Nat.le_refl _) (Or.inl rfl)
      | (refine stuckX_of h rfl (Nat.le_refl _) ?_; dsimp only; exact keeps_upd _ _ (fun _ => ⟨hb, he⟩))
      | (have e := ‹w.wpc = _›; rw [h.wpc] at e; cases e)

/-- C97: if the code of a sink raises an exception while the worker is the only owner of that sink, the process hangs: the worker thread waits
for the thread of the sink and that for the worker, before any other exception has been dealt with, and no step of any thread changes that. -/
theorem C97_sink_hangs {s : YState M} {i : Nat} {f : Bool} (hs : Stuck s.w i f) (hb : s.block = true) {ls : List (YLabel M)} {s' : YState M}
    (h : yRun exc s ls = some s') : Stuck s'.w i f ∧ s'.block = true := by
  induction ls generalizing s with
  | nil => cases h; exact ⟨hs, hb⟩
  | cons l ls ih =>
    simp only [yRun] at h
    obtain ⟨u, hl, h⟩ := Option.bind_eq_some_iff.1 h
    rcases yStep_cases hl with ⟨l', w, hw, _, e1, _, e2, _⟩ | ⟨_, _, h1, _⟩ | ⟨t, _, _, _, h3, _⟩ | ⟨i, _, _, _, _, h3, _⟩
    · exact ih (by rw [e1]; exact stuck_tr (tr_of_step hw).2.2 hs) (by rw [e2]; exact hb) h
    · have := ((atExit_iff _).1 h1).1
      rw [hs.wpc] at this; cases this
    · rw [hb] at h3; cases h3
    · rw [hb] at h3; cases h3

end G3.Props
