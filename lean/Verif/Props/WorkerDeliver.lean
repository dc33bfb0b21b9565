import Verif.Props.WorkerOwn
import Verif.Spec.Worker
import Mathlib.Data.List.Induction
/-
The main invariant of the worker model: what has been sent to each sink is what the sequential specification says.
-/
namespace G3.Props
open G3 G3.Spec

variable {M : Type}

/-! ### The specification -/

theorem served_noFinal (l m : List (Req M)) (h : ∀ y ∈ l, y.final = false) : served (l ++ m) = l ++ served m := by
  induction l with
  | nil => rfl
  | cons a l ih =>
    rw [List.cons_append, served, h a (by simp), if_neg (by simp), ih (fun y hy => h y (List.mem_cons_of_mem _ hy))]
    rfl

theorem served_final (l m : List (Req M)) (h : ∃ y ∈ l, y.final = true) : served (l ++ m) = served l := by
  induction l with
  | nil => obtain ⟨y, hy, _⟩ := h; cases hy
  | cons a l ih =>
    rw [List.cons_append, served, served]
    cases ha : a.final with
    | true => rfl
    | false =>
      rw [if_neg (by simp), if_neg (by simp), ih]
      obtain ⟨y, hy, hf⟩ := h
      rcases List.mem_cons.1 hy with rfl | hy
      · rw [ha] at hf; cases hf
      · exact ⟨y, hy, hf⟩

theorem getsFrom_append (i : Nat) (l : List (Req M)) : ∀ pre m, getsFrom i pre (l ++ m) = getsFrom i pre l ++ getsFrom i (pre ++ l) m := by
  induction l with
  | nil => intro pre m; simp [getsFrom]
  | cons a l ih => intro pre m; simp only [List.cons_append, getsFrom, ih, List.append_assoc, List.nil_append]

theorem errsFrom_append (l : List (Req M)) : ∀ pre m, errsFrom pre (l ++ m) = errsFrom pre l ++ errsFrom (pre ++ l) m := by
  induction l with
  | nil => intro pre m; simp [errsFrom]
  | cons a l ih => intro pre m; simp only [List.cons_append, errsFrom, ih, List.append_assoc, List.nil_append]

theorem served_self (l : List (Req M)) (h : ∀ y ∈ l, y.final = false) : served l = l := by
  have := served_noFinal l [] h
  simpa [served] using this

theorem gets_snoc (i : Nat) (l : List (Req M)) (r : Req M) (h : ∀ y ∈ l, y.final = false) :
    gets i (l ++ [r]) = gets i l ++ if attached i l then r.gives else [] := by
  have h1 : served [r] = [r] := by rw [served]; split <;> rfl
  rw [gets, gets, served_noFinal l [r] h, served_self l h, getsFrom_append, h1]
  simp [getsFrom]

theorem errs_snoc (l : List (Req M)) (r : Req M) (h : ∀ y ∈ l, y.final = false) : errs (l ++ [r]) = errs l ++ r.err l := by
  have h1 : served [r] = [r] := by rw [served]; split <;> rfl
  rw [errs, errs, served_noFinal l [r] h, served_self l h, errsFrom_append, h1]
  simp [errsFrom]

theorem gets_final (i : Nat) (l m : List (Req M)) (h : ∃ y ∈ l, y.final = true) : gets i (l ++ m) = gets i l := by
  rw [gets, gets, served_final l m h]

theorem errs_final (l m : List (Req M)) (h : ∃ y ∈ l, y.final = true) : errs (l ++ m) = errs l := by
  rw [errs, errs, served_final l m h]

theorem attached_snoc (i : Nat) (l : List (Req M)) (r : Req M) : attached i (l ++ [r]) = ((attached i l || r.startsFor i) && !r.endsFor i) := by
  simp [attached, List.foldl_append]

/-- Attached means: attached at some point and nothing has ended that since. -/
theorem attached_iff (i : Nat) (l : List (Req M)) : attached i l = true ↔ ∃ a b, l = a ++ .attach i :: b ∧ ∀ r ∈ b, r.endsFor i = false := by
  induction l using List.reverseRecOn with
  | nil => simp [attached]
  | append_singleton l r ih =>
    rw [attached_snoc, Bool.and_eq_true, Bool.or_eq_true, ih, Bool.not_eq_true']
    constructor
    · rintro ⟨h1 | h1, h2⟩
      · obtain ⟨a, b, rfl, hb⟩ := h1
        refine ⟨a, b ++ [r], by simp, ?_⟩
        intro x hx
        rcases List.mem_append.1 hx with hx | hx
        · exact hb x hx
        · rw [List.mem_singleton] at hx; subst hx; exact h2
      · cases r <;> simp [Req.startsFor] at h1
        subst h1
        exact ⟨l, [], by simp, by simp⟩
    · rintro ⟨a, b, hab, hb⟩
      rcases List.eq_nil_or_concat b with rfl | ⟨b', y, rfl⟩
      · have := List.append_inj' hab rfl
        obtain ⟨h1, h2⟩ := this
        cases h2
        exact ⟨Or.inr (by simp [Req.startsFor]), rfl⟩
      · rw [List.concat_eq_append] at hab hb
        rw [← List.cons_append, ← List.append_assoc] at hab
        obtain ⟨h1, h2⟩ := List.append_inj' hab rfl
        cases h2
        exact ⟨Or.inl ⟨a, b', h1, fun x hx => hb x (List.mem_append_left _ hx)⟩, hb _ (by simp)⟩

theorem attached_mem {i : Nat} {l : List (Req M)} (h : attached i l = true) : .attach i ∈ l := by
  obtain ⟨a, b, rfl, _⟩ := (attached_iff i l).1 h
  simp

theorem idsOf_mem {i : Nat} {l : List (Req M)} : i ∈ idsOf l ↔ .attach i ∈ l := by
  rw [idsOf, List.mem_filterMap]
  constructor
  · rintro ⟨r, hr, hi⟩
    cases r <;> simp at hi
    subst hi; exact hr
  · intro h; exact ⟨_, h, rfl⟩

theorem nobody_iff (l : List (Req M)) : nobody l = true ↔ ∀ i, attached i l = false := by
  rw [nobody, List.all_eq_true]
  constructor
  · intro h i
    cases ha : attached i l with
    | false => rfl
    | true =>
      have := h i (idsOf_mem.2 (attached_mem ha))
      rw [ha] at this; cases this
  · intro h i _
    rw [h i]; rfl

/-! ### The invariant -/

/-- The request a task stands for. -/
def req : WTask M → Req M
  | .save m => .log m
  | .fatal m => .fatal m
  | .add i => .attach i
  | .remove i => .detach i
  | .clear => .detachAll
  | .done => .close

/-- The message in a task of a sink. -/
def gotOf : SItem M → Option (Got M)
  | .msg m => some (.log m)
  | .fatal m => some (.fatal m)
  | _ => none

def toErr : ErrLine M → Err M
  | .noSinks m => .noSinks m
  | .fatal m => .fatal m

/-- The messages among everything ever sent to a sink. -/
def sentMsgs (k : SinkSt M) : List (Got M) := (full k).filterMap gotOf

/-- The message the worker thread has still to send to sink i. -/
def pend (i : Nat) : WPc M → List (Got M)
  | .sending x rest => if i ∈ rest then (gotOf x).toList else []
  | _ => []

/-- The first tasks as requests. -/
def reqs (s : WState M) (n : Nat) : List (Req M) := (s.sub.take n).map req

/-- What the list of sinks says. -/
def attRel (s : WState M) : Prop :=
  match s.wpc with
  | .idle => ∀ i, i ∈ s.att ↔ attached i (reqs s s.completed) = true
  | .sending _ _ => ∀ i, i ∈ s.att ↔ attached i (reqs s s.completed) = true
  | .rmHeld _ => ∀ i, i ∈ s.att ↔ attached i (reqs s (s.completed + 1)) = true
  | .rmWait _ => ∀ i, i ∈ s.att ↔ attached i (reqs s (s.completed + 1)) = true
  | .dead => s.att = []
  | _ => True

structure DInv (s : WState M) : Prop where
  got : ∀ i, sentMsgs (s.sk i) ++ pend i s.wpc = gets i (reqs s (started s))
  att : attRel s
  err : s.err.map toErr = errs (reqs s (started s))

theorem dinv_start : DInv (WState.start : WState M) :=
  ⟨fun _ => rfl, fun i => by simp [WState.start, reqs, attached], rfl⟩

theorem reqs_succ {s : WState M} {n : Nat} {t : WTask M} (h : s.sub[n]? = some t) : reqs s (n + 1) = reqs s n ++ [req t] := by
  simp [reqs, List.take_add_one, h]

theorem reqs_ext {s s' : WState M} {n : Nat} (h : ∃ t, s'.sub = s.sub ++ t) (hn : n ≤ s.sub.length) : reqs s' n = reqs s n := by
  obtain ⟨t, ht⟩ := h
  rw [reqs, reqs, ht, List.take_append_of_le_length hn]

theorem final_req (t : WTask M) : (req t).final = isFinal t := by cases t <;> rfl

theorem noFinal_reqs {s : WState M} {n : Nat} (h : ∀ t ∈ s.sub.take n, isFinal t = false) : ∀ y ∈ reqs s n, y.final = false := by
  intro y hy
  obtain ⟨t, ht, rfl⟩ := List.mem_map.1 hy
  rw [final_req]; exact h t ht

theorem sentMsgs_push {k : SinkSt M} (he : k.exited = false) (x : SItem M) : sentMsgs (k.push x) = sentMsgs k ++ (gotOf x).toList := by
  unfold sentMsgs full SinkSt.push
  simp only [he, Bool.false_eq_true, if_false, List.append_nil, ← List.append_assoc]
  rw [List.filterMap_append]
  congr 1

theorem sentMsgs_stop {k : SinkSt M} (he : k.exited = false) (b : Bool) (r : Nat) :
    sentMsgs { ({ k with refs := r } : SinkSt M).stop with reaping := b } = sentMsgs k := by
  unfold sentMsgs full SinkSt.stop
  simp only [he, Bool.false_eq_true, if_false, List.append_nil, ← List.append_assoc]
  rw [List.filterMap_append]
  exact List.append_nil _

theorem sentMsgs_pop {k : SinkSt M} {x : SItem M} {r : List (SItem M)} (hr : k.running = none) (hq : k.q = x :: r) :
    sentMsgs { k with q := r, running := some x } = sentMsgs k := by
  unfold sentMsgs full
  simp [hr, hq]

theorem sentMsgs_finStop {k : SinkSt M} (he : k.exited = false) (hr : k.running = some .stop) :
    sentMsgs { k with running := none, exited := true } = sentMsgs k := by
  unfold sentMsgs full
  simp only [hr, he, List.filterMap_append, Option.toList_none, Option.toList_some, if_true, Bool.false_eq_true, if_false]
  have : List.filterMap gotOf [(SItem.stop : SItem M)] = [] := rfl
  rw [this]; simp

theorem sentMsgs_fin {k : SinkSt M} {x : SItem M} (hr : k.running = some x) :
    sentMsgs { k with running := none, done := k.done ++ [x] } = sentMsgs k := by
  unfold sentMsgs full
  simp [hr]

/-- A step that sends no message and takes no task. -/
theorem dinv_frame {s s' : WState M} (h : DInv s) (hle : started s ≤ s.sub.length) (h1 : ∀ i, sentMsgs (s'.sk i) = sentMsgs (s.sk i))
    (h2 : s'.wpc = s.wpc) (h3 : s'.att = s.att ∨ s'.wpc = .ended) (h4 : ∃ t, s'.sub = s.sub ++ t) (h5 : s'.completed = s.completed)
    (h6 : s'.err = s.err) : DInv s' := by
  have hst : started s' = started s := by unfold started; rw [h2, h5]
  obtain ⟨a, b, c⟩ := h
  refine ⟨?_, ?_, ?_⟩
  · intro i; rw [h1, h2, hst, reqs_ext h4 hle]; exact a i
  · rcases h3 with h3 | h3
    · have hr : reqs s' s.completed = reqs s s.completed := reqs_ext h4 (by unfold started at hle; omega)
      have hr1 : pcBusy s.wpc = 1 → reqs s' (s.completed + 1) = reqs s (s.completed + 1) := fun hb => reqs_ext h4 (by unfold started at hle; omega)
      unfold attRel at b ⊢
      rw [h2]
      cases hw : s.wpc <;> rw [hw] at b <;> simp only at b ⊢
      case idle => rw [h3, h5, hr]; exact b
      case sending => rw [h3, h5, hr]; exact b
      case rmHeld => rw [h3, h5, hr1 (by rw [hw]; rfl)]; exact b
      case rmWait => rw [h3, h5, hr1 (by rw [hw]; rfl)]; exact b
      case dead => rw [h3]; exact b
    · unfold attRel; rw [h3]; trivial
  · rw [h6, hst, reqs_ext h4 hle]; exact c

/-- A step of the worker thread within a task. -/
theorem dinv_move {s s' : WState M} (h : DInv s) (h1 : ∀ i, sentMsgs (s'.sk i) = sentMsgs (s.sk i)) (h2 : ∀ i, pend i s'.wpc = pend i s.wpc)
    (h3 : started s' = started s) (h4 : s'.sub = s.sub) (h6 : s'.err = s.err) (h7 : attRel s') : DInv s' := by
  have hr : reqs s' (started s') = reqs s (started s) := by unfold reqs; rw [h3, h4]
  refine ⟨?_, h7, ?_⟩
  · intro i; rw [h1, h2, hr]; exact h.got i
  · rw [h6, hr]; exact h.err

theorem sent_upd {sk : Nat → SinkSt M} {i : Nat} {f : SinkSt M → SinkSt M} (h : sentMsgs (f (sk i)) = sentMsgs (sk i)) :
    ∀ j, sentMsgs (updSink sk i f j) = sentMsgs (sk j) := by
  intro j
  by_cases hj : j = i
  · subst hj; rw [updSink_self]; exact h
  · rw [updSink_ne _ _ hj]

/-- Taking a task. -/
theorem dinv_take {s : WState M} (hb : Book s) (h : DInv s) {t : WTask M} {r : List (WTask M)} (hw : s.wpc = .idle) (hq : s.wq = t :: r) :
    s.sub[s.completed]? = some t ∧ (∀ i, i ∈ s.att ↔ attached i (reqs s s.completed) = true) ∧
    (∀ i, sentMsgs (s.sk i) ++ (if attached i (reqs s s.completed) then (req t).gives else []) = gets i (reqs s (s.completed + 1))) ∧
    (s.err.map toErr ++ (req t).err (reqs s s.completed) = errs (reqs s (s.completed + 1))) ∧
    (∀ i, attached i (reqs s (s.completed + 1)) = ((attached i (reqs s s.completed) || (req t).startsFor i) && !(req t).endsFor i)) := by
  have hg : s.phase.queueGone = false := by
    cases hg : s.phase.queueGone
    · rfl
    · rw [(hb.gone hg).1] at hq; cases hq
  have hst : started s = s.completed := by unfold started; rw [hw]; rfl
  have hdr := hb.queue hg
  rw [hst, hq] at hdr
  obtain ⟨e1, e2, e3, e4⟩ := take_lemma hdr.symm
  have hnf := noFinal_reqs (hb.notFinal (by rw [hw]; simp))
  obtain ⟨a, b, c⟩ := h
  unfold attRel at b
  rw [hw] at b
  refine ⟨e1, b, ?_, ?_, ?_⟩
  · intro i
    rw [reqs_succ e1, gets_snoc i _ _ hnf]
    have := a i
    rw [hw, hst] at this
    rw [← this]; simp [pend]
  · rw [reqs_succ e1, errs_snoc _ _ hnf, c, hst]
  · intro i; rw [reqs_succ e1, attached_snoc]

theorem dinv_tr {s s' : WState M} (ht : Tr s s') (hb : Book s) (hc : CallsInv s) (hs : SInv s) (h : DInv s) : DInv s' := by
  have hle := hb.le
  cases ht with
  | ub => exact dinv_frame h hle (fun _ => rfl) rfl (Or.inl rfl) ⟨[], by simp⟩ rfl rfl
  | save => exact dinv_frame h hle (fun _ => rfl) rfl (Or.inl rfl) ⟨_, rfl⟩ rfl rfl
  | fatal => exact dinv_frame h hle (fun _ => rfl) rfl (Or.inl rfl) ⟨_, rfl⟩ rfl rfl
  | addQ =>
    exact dinv_frame h hle (sent_upd (by rw [hs.fresh s.n (Nat.le_refl _)])) rfl (Or.inl rfl) ⟨_, rfl⟩ rfl rfl
  | addN =>
    exact dinv_frame h hle (sent_upd (by rw [hs.fresh s.n (Nat.le_refl _)])) rfl (Or.inl rfl) ⟨[], by simp⟩ rfl rfl
  | rmQ => exact dinv_frame h hle (fun _ => rfl) rfl (Or.inl rfl) ⟨_, rfl⟩ rfl rfl
  | rmN => exact dinv_frame h hle (fun _ => rfl) rfl (Or.inl rfl) ⟨[], by simp⟩ rfl rfl
  | clrQ => exact dinv_frame h hle (fun _ => rfl) rfl (Or.inl rfl) ⟨_, rfl⟩ rfl rfl
  | clrN => exact dinv_frame h hle (fun _ => rfl) rfl (Or.inl rfl) ⟨[], by simp⟩ rfl rfl
  | retAddKeep => exact dinv_frame h hle (fun _ => rfl) rfl (Or.inl rfl) ⟨[], by simp⟩ rfl rfl
  | retAddDrop k i c hk hr hrd hki ho =>
    have hi : i < s.n := hc.ids c (List.mem_iff_getElem?.2 ⟨k, hk⟩) i (Or.inl hki)
    have hal := alive_of_owned hs hi (owned_iff.2 (Or.inr (Or.inr (Or.inl (adding_mem hk hki hr)))))
    exact dinv_frame h hle (sent_upd (f := fun k => { k.stop with reaping := true }) (sentMsgs_stop (linv_alive (hs.loc i) hal).1 true _)) rfl (Or.inl rfl) ⟨[], by simp⟩ rfl rfl
  | retOther => exact dinv_frame h hle (fun _ => rfl) rfl (Or.inl rfl) ⟨[], by simp⟩ rfl rfl
  | hold => exact dinv_frame h hle (sent_upd rfl) rfl (Or.inl rfl) ⟨[], by simp⟩ rfl rfl
  | holdFail => exact dinv_frame h hle (fun _ => rfl) rfl (Or.inl rfl) ⟨[], by simp⟩ rfl rfl
  | call i c hi hr =>
    have hal := alive_of_owned hs hi (owned_iff.2 (Or.inl hr))
    refine dinv_frame h hle (sent_upd (f := (·.push (.call c))) ?_) rfl (Or.inl rfl) ⟨[], by simp⟩ rfl rfl
    rw [sentMsgs_push (linv_alive (hs.loc i) hal).1]; simp [gotOf]
  | relKeep => exact dinv_frame h hle (sent_upd rfl) rfl (Or.inl rfl) ⟨[], by simp⟩ rfl rfl
  | relDrop i hi hr ho =>
    have hal := alive_of_owned hs hi (owned_iff.2 (Or.inl hr))
    exact dinv_frame h hle (sent_upd (f := fun k => { ({ k with refs := k.refs - 1 } : SinkSt M).stop with reaping := true }) (sentMsgs_stop (linv_alive (hs.loc i) hal).1 true _)) rfl (Or.inl rfl) ⟨[], by simp⟩ rfl rfl
  | reap => exact dinv_frame h hle (sent_upd rfl) rfl (Or.inl rfl) ⟨[], by simp⟩ rfl rfl
  | dStart => exact dinv_frame h hle (fun _ => rfl) rfl (Or.inl rfl) ⟨_, rfl⟩ rfl rfl
  | dStop => exact dinv_frame h hle (fun _ => rfl) rfl (Or.inl rfl) ⟨_, rfl⟩ rfl rfl
  | dJoin => exact dinv_frame h hle (fun _ => rfl) rfl (Or.inl rfl) ⟨[], by simp⟩ rfl rfl
  | dRet => exact dinv_frame h hle (fun _ => rfl) rfl (Or.inl rfl) ⟨[], by simp⟩ rfl rfl
  | dKeep i r hp ha ho =>
    exact dinv_frame h hle (fun _ => rfl) rfl (Or.inr (hb.gone (by rw [hp]; rfl)).2) ⟨[], by simp⟩ rfl rfl
  | dDrop i r hp ha ho =>
    have hmem : i ∈ s.att := by rw [ha]; simp
    have hal := alive_of_owned hs (att_lt hc hs hmem) (owned_iff.2 (Or.inr (Or.inl hmem)))
    exact dinv_frame h hle (sent_upd (f := (·.stop)) (sentMsgs_stop (linv_alive (hs.loc i) hal).1 _ _)) rfl (Or.inr (hb.gone (by rw [hp]; rfl)).2) ⟨[], by simp⟩ rfl rfl
  | dReap => exact dinv_frame h hle (sent_upd rfl) rfl (Or.inl rfl) ⟨[], by simp⟩ rfl rfl
  | tSaveNone m r hw hq ha =>
    obtain ⟨e1, e2, e3, e4, e5⟩ := dinv_take hb h hw hq
    have hno : ∀ i, attached i (reqs s s.completed) = false := by
      intro i
      cases hx : attached i (reqs s s.completed)
      · rfl
      · have := (e2 i).2 hx; rw [ha] at this; cases this
    have hst : started { s with wq := r, err := s.err ++ [ErrLine.noSinks m], completed := s.completed + 1 } = s.completed + 1 := by
      simp only [started, hw, pcBusy]
    refine ⟨?_, ?_, ?_⟩
    · intro i
      rw [hst]
      have := e3 i
      rw [hno i, if_neg (by simp)] at this
      rw [show pend i _ = [] from by simp only [hw]; rfl]
      exact this
    · unfold attRel
      rw [hw]
      intro i
      have h1 := e5 i
      rw [hno i] at h1
      have h2 : attached i (reqs s (s.completed + 1)) = false := by rw [h1]; rfl
      show i ∈ s.att ↔ attached i (reqs s (s.completed + 1)) = true
      rw [h2, ha]; simp
    · rw [hst]
      simp only [List.map_append]
      show _ = errs (reqs s (s.completed + 1))
      rw [← e4]
      simp only [req, Req.err, (nobody_iff _).2 hno, if_true]; rfl
  | tSave m r hw hq ha =>
    obtain ⟨e1, e2, e3, e4, e5⟩ := dinv_take hb h hw hq
    refine ⟨?_, ?_, ?_⟩
    · intro i
      have := e3 i
      show _ = gets i (reqs s (s.completed + 1))
      rw [← this]
      congr 1
      simp only [pend, gotOf, e2 i]; rfl
    · exact e2
    · show _ = errs (reqs s (s.completed + 1))
      rw [← e4]
      have : nobody (reqs s s.completed) = false := by
        cases hn : nobody (reqs s s.completed)
        · rfl
        · exfalso
          rw [nobody_iff] at hn
          apply ha
          apply List.eq_nil_iff_forall_not_mem.2
          intro i hi
          have := (e2 i).1 hi
          rw [hn i] at this; cases this
      simp [req, Req.err, this]
  | tFatal m r hw hq =>
    obtain ⟨e1, e2, e3, e4, e5⟩ := dinv_take hb h hw hq
    refine ⟨?_, ?_, ?_⟩
    · intro i
      have := e3 i
      show _ = gets i (reqs s (s.completed + 1))
      rw [← this]
      congr 1
      simp only [pend, gotOf, e2 i]; rfl
    · exact e2
    · show _ = errs (reqs s (s.completed + 1))
      rw [← e4, List.map_append]; rfl
  | tAdd i r hw hq =>
    obtain ⟨e1, e2, e3, e4, e5⟩ := dinv_take hb h hw hq
    have hst : started { s with wq := r, att := s.att ++ [i], completed := s.completed + 1 } = s.completed + 1 := by
      simp only [started, hw, pcBusy]
    refine ⟨?_, ?_, ?_⟩
    · intro j
      rw [hst]
      show _ = gets j (reqs s (s.completed + 1))
      rw [← e3 j]
      simp [hw, pend, req, Req.gives]
    · unfold attRel
      rw [hw]
      intro j
      show j ∈ s.att ++ [i] ↔ attached j (reqs s (s.completed + 1)) = true
      rw [e5 j, List.mem_append, e2 j, List.mem_singleton]
      simp only [req, Req.startsFor, Req.endsFor, Bool.and_eq_true, Bool.or_eq_true, decide_eq_true_eq, Bool.not_false, and_true]
      constructor
      · rintro (h1 | h1)
        · exact Or.inl h1
        · exact Or.inr h1.symm
      · rintro (h1 | h1)
        · exact Or.inl h1
        · exact Or.inr h1.symm
    · rw [hst]
      show _ = errs (reqs s (s.completed + 1))
      rw [← e4]; simp [req, Req.err]
  | tRmYes i r hw hq ho =>
    obtain ⟨e1, e2, e3, e4, e5⟩ := dinv_take hb h hw hq
    refine ⟨?_, ?_, ?_⟩
    · intro j
      show _ = gets j (reqs s (s.completed + 1))
      rw [← e3 j]
      simp [pend, req, Req.gives]
    · intro j
      show j ∈ s.att.filter _ ↔ attached j (reqs s (s.completed + 1)) = true
      rw [e5 j, List.mem_filter, e2 j]
      simp only [req, Req.startsFor, Req.endsFor, Bool.and_eq_true, Bool.or_false, decide_eq_true_eq, Bool.not_eq_true', decide_eq_false_iff_not]
      constructor
      · rintro ⟨h1, h2⟩; exact ⟨h1, fun e => h2 e.symm⟩
      · rintro ⟨h1, h2⟩; exact ⟨h1, fun e => h2 e.symm⟩
    · show _ = errs (reqs s (s.completed + 1))
      rw [← e4]; simp [req, Req.err]
  | tRmNo i r hw hq ho =>
    obtain ⟨e1, e2, e3, e4, e5⟩ := dinv_take hb h hw hq
    have hst : started { s with wq := r, completed := s.completed + 1 } = s.completed + 1 := by
      simp only [started, hw, pcBusy]
    refine ⟨?_, ?_, ?_⟩
    · intro j
      rw [hst]
      show _ = gets j (reqs s (s.completed + 1))
      rw [← e3 j]
      simp [hw, pend, req, Req.gives]
    · unfold attRel
      rw [hw]
      intro j
      show j ∈ s.att ↔ attached j (reqs s (s.completed + 1)) = true
      rw [e5 j, e2 j]
      simp only [req, Req.startsFor, Req.endsFor, Bool.and_eq_true, Bool.or_false, Bool.not_eq_true', decide_eq_false_iff_not]
      constructor
      · intro h1
        refine ⟨h1, fun e => ?_⟩
        subst e
        have : owned s i = true := owned_iff.2 (Or.inr (Or.inl ((e2 i).2 h1)))
        rw [ho] at this; cases this
      · exact fun h1 => h1.1
    · rw [hst]
      show _ = errs (reqs s (s.completed + 1))
      rw [← e4]; simp [req, Req.err]
  | tClear r hw hq =>
    obtain ⟨e1, e2, e3, e4, e5⟩ := dinv_take hb h hw hq
    refine ⟨?_, trivial, ?_⟩
    · intro j
      show _ = gets j (reqs s (s.completed + 1))
      rw [← e3 j]
      simp [pend, req, Req.gives]
    · show _ = errs (reqs s (s.completed + 1))
      rw [← e4]; simp [req, Req.err]
  | tDone r hw hq =>
    obtain ⟨e1, e2, e3, e4, e5⟩ := dinv_take hb h hw hq
    refine ⟨?_, trivial, ?_⟩
    · intro j
      show _ = gets j (reqs s (s.completed + 1))
      rw [← e3 j]
      simp [pend, req, Req.gives]
    · show _ = errs (reqs s (s.completed + 1))
      rw [← e4]; simp [req, Req.err]
  | send x i rest hw =>
    have hr := hs.rest _ _ hw
    have hmem : i ∈ s.att := hr.1 i (by simp)
    have hal := alive_of_owned hs (att_lt hc hs hmem) (owned_iff.2 (Or.inr (Or.inl hmem)))
    have hst : started { s with sk := updSink s.sk i (·.push x), wpc := .sending x rest } = started s := by simp only [started, hw, pcBusy]
    have hnd := List.nodup_cons.1 hr.2
    refine ⟨?_, ?_, ?_⟩
    · intro j
      rw [hst]
      show _ = gets j (reqs s (started s))
      rw [← h.got j, hw]
      by_cases hj : j = i
      · subst hj
        simp only [updSink_self, pend]
        rw [sentMsgs_push (linv_alive (hs.loc j) hal).1, if_neg hnd.1, if_pos (by simp), List.append_nil]
      · simp only [updSink_ne _ _ hj, pend, List.mem_cons, hj, false_or]
    · have := h.att; unfold attRel at this; rw [hw] at this; exact this
    · rw [hst]; exact h.err
  | sendEndF m hw =>
    refine dinv_move h (fun _ => rfl) (fun i => by rw [hw]; rfl) (by simp only [started, hw, pcBusy]) rfl rfl trivial
  | sendEnd x hw hx =>
    refine dinv_move h (fun _ => rfl) (fun i => by rw [hw]; simp [pend]) (by simp only [started, hw, pcBusy]) rfl rfl ?_
    have h1 := h.att; unfold attRel at h1; rw [hw] at h1
    have h2 := hb.task; rw [hw] at h2
    intro i
    show i ∈ s.att ↔ attached i (reqs s (s.completed + 1)) = true
    cases x with
    | msg m =>
      rw [reqs_succ h2, attached_snoc, h1 i]
      simp [req, Req.startsFor, Req.endsFor]
    | fatal m => exact absurd rfl (hx m)
    | call c => exact h2.elim
    | stop => exact h2.elim
  | rmKeep i hw ho =>
    refine dinv_move h (fun _ => rfl) (fun i => by rw [hw]; rfl) (by simp only [started, hw, pcBusy]) rfl rfl ?_
    have h1 := h.att; unfold attRel at h1; rw [hw] at h1; exact h1
  | rmDrop i hw ho =>
    have hi : i < s.n := by
      have := hb.task
      rw [hw] at this
      exact hc.rms i (List.mem_iff_getElem?.2 ⟨_, this⟩)
    have hal := alive_of_owned hs hi (owned_iff.2 (by right; right; right; rw [hw]; simp [WPc.holds]))
    refine dinv_move h (sent_upd (f := (·.stop)) (sentMsgs_stop (linv_alive (hs.loc i) hal).1 _ _)) (fun i => by rw [hw]; rfl) (by simp only [started, hw, pcBusy]) rfl rfl ?_
    have h1 := h.att; unfold attRel at h1; rw [hw] at h1; exact h1
  | rmReap i hw he =>
    refine dinv_move h (sent_upd rfl) (fun i => by rw [hw]; rfl) (by simp only [started, hw, pcBusy]) rfl rfl ?_
    have h1 := h.att; unfold attRel at h1; rw [hw] at h1; exact h1
  | clrEndF hw ha =>
    exact dinv_move h (fun _ => rfl) (fun i => by rw [hw]; rfl) (by simp only [started, hw, pcBusy]) rfl rfl ha
  | clrEnd hw ha =>
    refine dinv_move h (fun _ => rfl) (fun i => by rw [hw]; rfl) (by simp only [started, hw, pcBusy]) rfl rfl ?_
    have h2 := hb.task; rw [hw] at h2
    intro i
    show i ∈ s.att ↔ attached i (reqs s (s.completed + 1)) = true
    rw [reqs_succ h2, attached_snoc, ha]
    simp [req, Req.endsFor]
  | clrKeep f i r hw ha ho =>
    exact dinv_move h (fun _ => rfl) (fun i => rfl) rfl rfl rfl (by unfold attRel; rw [hw]; trivial)
  | clrDrop f i r hw ha ho =>
    have hmem : i ∈ s.att := by rw [ha]; simp
    have hal := alive_of_owned hs (att_lt hc hs hmem) (owned_iff.2 (Or.inr (Or.inl hmem)))
    exact dinv_move h (sent_upd (f := (·.stop)) (sentMsgs_stop (linv_alive (hs.loc i) hal).1 _ _)) (fun i => by rw [hw]; rfl) (by simp only [started, hw, pcBusy]) rfl rfl trivial
  | clrReap i f hw he =>
    exact dinv_move h (sent_upd rfl) (fun i => by rw [hw]; rfl) (by simp only [started, hw, pcBusy]) rfl rfl trivial
  | sPop i x r hi hr he hq =>
    exact dinv_frame h hle (sent_upd (f := fun k => { k with q := r, running := some x }) (sentMsgs_pop hr hq)) rfl (Or.inl rfl) ⟨[], by simp⟩ rfl rfl
  | sFinStop i hi hbl hr =>
    have he : (s.sk i).exited = false := by
      cases he : (s.sk i).exited
      · rfl
      · have := ((hs.loc i).exit he).2; rw [hr] at this; cases this
    exact dinv_frame h hle (sent_upd (f := fun k => { k with running := none, exited := true }) (sentMsgs_finStop he hr)) rfl (Or.inl rfl) ⟨[], by simp⟩ rfl rfl
  | sFin i x hi hbl hr hx =>
    exact dinv_frame h hle (sent_upd (f := fun k => { k with running := none, done := k.done ++ [x] }) (sentMsgs_fin hr)) rfl (Or.inl rfl) ⟨[], by simp⟩ rfl rfl
  | sFatal => exact dinv_frame h hle (sent_upd rfl) rfl (Or.inl rfl) ⟨_, rfl⟩ rfl rfl

/-- All invariants together. -/
structure WInv (s : WState M) : Prop where
  book : Book s
  calls : CallsInv s
  sinks : SInv s
  deliver : DInv s

theorem winv_step {s s' : WState M} {l : WLabel M} (h : WInv s) (hs : wStep s l = some s') : WInv s' := by
  obtain ⟨_, _, ht⟩ := tr_of_step hs
  exact ⟨book_tr ht h.book, calls_tr ht h.calls, sinv_tr ht h.book h.calls h.sinks, dinv_tr ht h.book h.calls h.sinks h.deliver⟩

theorem wrun_induct {P : WState M → Prop} (hstep : ∀ s s' l, P s → wStep s l = some s' → P s') (ls : List (WLabel M)) :
    ∀ s s', P s → wRun s ls = some s' → P s' := by
  induction ls with
  | nil => intro s s' h hr; cases hr; exact h
  | cons l ls ih =>
    intro s s' h hr
    simp only [wRun] at hr
    cases hl : wStep s l with
    | none => rw [hl] at hr; cases hr
    | some u => rw [hl] at hr; exact ih u s' (hstep s u l h hl) hr

theorem winv_run {ls : List (WLabel M)} {s : WState M} (h : wRun WState.start ls = some s) : WInv s :=
  wrun_induct (fun _ _ _ a b => winv_step a b) ls _ s ⟨book_start, calls_start, sinv_start, dinv_start⟩ h

end G3.Props
