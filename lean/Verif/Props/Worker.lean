import Verif.Props.WorkerMono
/-
Properties of the log worker: C01-C08, C55.

In every theorem `ls` is an arbitrary schedule of an arbitrary number of client threads, the worker thread, the threads of the
sinks and the destructor of the worker, and `handed 0 0 ls` is the list of requests that entered the worker.
-/
namespace G3.Props
open G3 G3.Spec

variable {M : Type}

/-- The messages that the callback of a sink has processed. -/
def received (k : SinkSt M) : List (Got M) := k.done.filterMap gotOf

/-- A client keeps the sink alive or is busy destroying it: it holds a `shared_ptr` (`SinkHandle::sink()`, a call in progress), or
its `addSink` has not returned, or it executes the destructor of the sink. -/
def clientUses (s : WState M) (i : Nat) : Prop := 0 < (s.sk i).refs ∨ adding s.calls i = true ∨ (s.sk i).reaping = true

/-- The worker has nothing to do any more. -/
def settled (s : WState M) : Prop := (s.wpc = .idle ∧ s.wq = []) ∨ s.wpc = .ended ∨ s.wpc = .dead

theorem received_prefix (k : SinkSt M) : received k <+: sentMsgs k := by
  unfold received sentMsgs full
  simp only [List.append_assoc, List.filterMap_append]
  exact List.prefix_append _ _

theorem received_drained {k : SinkSt M} (hq : k.q = []) (hr : k.running = none) : received k = sentMsgs k := by
  unfold received sentMsgs full
  simp only [hq, hr, List.append_assoc, List.filterMap_append]
  cases k.exited <;> simp [gotOf]

theorem reqs_handed {ls : List (WLabel M)} {s : WState M} (h : wRun WState.start ls = some s) (n : Nat) : reqs s n = (handed 0 0 ls).take n := by
  rw [← sub_handed h, reqs, List.map_take]

theorem reqs_split (s : WState M) (n : Nat) : s.sub.map req = reqs s n ++ (s.sub.drop n).map req := by
  rw [reqs, ← List.map_append, List.take_append_drop]

theorem sent_prefix {ls : List (WLabel M)} {s : WState M} (h : wRun WState.start ls = some s) (i : Nat) :
    sentMsgs (s.sk i) <+: gets i (handed 0 0 ls) := by
  have hg := (allInv_run h).w.deliver.got i
  rw [← sub_handed h, reqs_split s (started s)]
  refine List.IsPrefix.trans ?_ (gets_mono i _ _)
  rw [← hg]; exact List.prefix_append _ _

theorem settled_final {s : WState M} (hb : Book s) (h : settled s) :
    (∃ y ∈ reqs s (started s), y.final = true) ∨ s.sub.map req = reqs s (started s) := by
  rcases h with ⟨hw, hq⟩ | hw | hw
  · right
    have hg : s.phase.queueGone = false := by
      cases hg : s.phase.queueGone
      · rfl
      · rw [(hb.gone hg).2] at hw; cases hw
    have := hb.queue hg
    rw [hq] at this
    rw [reqs_split s (started s), ← this]; simp
  · left
    obtain ⟨pre, hp, _⟩ := hb.ended hw
    refine ⟨.close, ?_, rfl⟩
    have : started s = s.completed := by unfold started; rw [hw]; rfl
    rw [this, reqs, hp]; simp [req]
  · left
    have ht := hb.task
    rw [hw] at ht
    obtain ⟨m, hm⟩ := ht
    refine ⟨.fatal m, ?_, rfl⟩
    have : started s = s.completed + 1 := by unfold started; rw [hw]; rfl
    rw [this, reqs_succ hm]; simp [req]

theorem pend_settled {s : WState M} (h : settled s) (i : Nat) : pend i s.wpc = [] := by
  rcases h with ⟨hw, _⟩ | hw | hw <;> rw [hw] <;> rfl

theorem sent_settled {ls : List (WLabel M)} {s : WState M} (h : wRun WState.start ls = some s) (hs : settled s) (i : Nat) :
    sentMsgs (s.sk i) = gets i (handed 0 0 ls) := by
  have hi := allInv_run h
  have hg := hi.w.deliver.got i
  rw [pend_settled hs i, List.append_nil] at hg
  rw [hg, ← sub_handed h]
  rcases settled_final hi.w.book hs with hf | hf
  · rw [reqs_split s (started s), gets_final i _ _ hf]
  · rw [hf]

/-! ### C02 -/

/-- C02: at every moment of every schedule a sink has processed exactly an initial part of what the sequential specification gives
it; in particular nothing twice, nothing that is not its due and nothing out of turn. -/
theorem C02_prefix {ls : List (WLabel M)} {s : WState M} (h : wRun WState.start ls = some s) (i : Nat) :
    received (s.sk i) <+: gets i (handed 0 0 ls) :=
  (received_prefix _).trans (sent_prefix h i)

/-- C02: once the worker has nothing to do and the queue of the sink is empty the sink has processed everything. -/
theorem C02_complete {ls : List (WLabel M)} {s : WState M} (h : wRun WState.start ls = some s) (hs : settled s) (i : Nat)
    (hq : (s.sk i).q = []) (hr : (s.sk i).running = none) : received (s.sk i) = gets i (handed 0 0 ls) := by
  rw [received_drained hq hr, sent_settled h hs]

/-- C02, the meaning of the specification: a message contributes one element to each sink attached at its turn and none to any
other. -/
theorem C02_each (i : Nat) (a b : List (Req M)) (m : M) (ha : ∀ r ∈ a, r.final = false) :
    ∃ rest, gets i (a ++ .log m :: b) = gets i a ++ (if attached i a then [.log m] else []) ++ rest ∧ rest.Sublist (b.flatMap Req.gives) := by
  refine ⟨getsFrom i (a ++ [.log m]) (served b), ?_, (getsFrom_sublist i _ _).trans (flatMap_prefix Req.gives (served_prefix b)).sublist⟩
  have h1 : served (Req.log m :: b) = .log m :: served b := rfl
  rw [gets, gets, served_noFinal _ _ ha, served_self _ ha, getsFrom_append, h1, getsFrom]
  simp [Req.gives]

/-- C02: attached means added at some earlier point and not removed since. -/
theorem C02_attached (i : Nat) (a : List (Req M)) :
    attached i a = true ↔ ∃ p q, a = p ++ .attach i :: q ∧ ∀ r ∈ q, r.endsFor i = false := attached_iff i a

/-! ### C01 -/

/-- C01: every sink processes its messages in the order in which they entered the worker. -/
theorem C01_order {ls : List (WLabel M)} {s : WState M} (h : wRun WState.start ls = some s) (i : Nat) :
    (received (s.sk i)).Sublist ((handed 0 0 ls).flatMap Req.gives) :=
  (C02_prefix h i).sublist.trans (gets_sublist i _)

theorem pair_of_sublist {α} {R L : List α} (h : R.Sublist L) (hn : L.Nodup) {x y : α} (hxy : [x, y].Sublist L) (hx : x ∈ R) (hy : y ∈ R) :
    [x, y].Sublist R := by
  induction h with
  | slnil => cases hx
  | @cons R L a h ih =>
    have ha : a ∉ L := (List.nodup_cons.1 hn).1
    have hxa : x ≠ a := fun e => ha (e ▸ h.subset hx)
    refine ih (List.nodup_cons.1 hn).2 ?_ hx hy
    cases hxy with
    | cons _ h' => exact h'
    | cons_cons _ h' => exact absurd rfl hxa
  | @cons_cons R L a h ih =>
    have ha : a ∉ L := (List.nodup_cons.1 hn).1
    by_cases hxa : x = a
    · subst hxa
      have hyx : y ≠ x := by
        have := (List.Sublist.nodup hxy hn)
        simp at this
        exact fun e => this e.symm
      refine List.Sublist.cons_cons _ (List.singleton_sublist.2 ?_)
      rcases List.mem_cons.1 hy with e | e
      · exact absurd e hyx
      · exact e
    · have h' : [x, y].Sublist L := by
        cases hxy with
        | cons _ h' => exact h'
        | cons_cons _ h' => exact absurd rfl hxa
      have hya : y ≠ a := fun e => ha (e ▸ h'.subset (by simp))
      refine List.Sublist.cons _ (ih (List.nodup_cons.1 hn).2 h' ?_ ?_)
      · rcases List.mem_cons.1 hx with e | e
        · exact absurd e hxa
        · exact e
      · rcases List.mem_cons.1 hy with e | e
        · exact absurd e hya
        · exact e

/-- C01: two messages that one sink processes as x, y are processed as x, y by every other sink that gets both (messages told apart
from each other; `M` may be text together with a serial number). -/
theorem C01_same_order {ls : List (WLabel M)} {s : WState M} (h : wRun WState.start ls = some s)
    (hn : ((handed 0 0 ls).flatMap Req.gives).Nodup) (i j : Nat) (x y : Got M) (hi : [x, y].Sublist (received (s.sk i)))
    (hx : x ∈ received (s.sk j)) (hy : y ∈ received (s.sk j)) : [x, y].Sublist (received (s.sk j)) :=
  pair_of_sublist (C01_order h j) hn (hi.trans (C01_order h i)) hx hy

/-- What a `save` adds to the requests. -/
theorem handed_save {a b : List (WLabel M)} {m : M} {s : WState M} (h : wRun WState.start (a ++ .save m :: b) = some s) (hu : s.ub = false) :
    ∃ t, handed 0 0 (a ++ .save m :: b) = handed 0 0 a ++ .log m :: t ∧ ∃ u, wRun WState.start a = some u ∧ u.phase.bgNull = false := by
  obtain ⟨u, ha, hb⟩ := wRun_append h
  rw [wRun] at hb
  obtain ⟨v, hv, hb⟩ := Option.bind_eq_some_iff.1 hb
  unfold wStep at hv
  split at hv
  · cases hv
  · simp only at hv
    split at hv
    · exfalso
      cases hv
      obtain ⟨_, h2⟩ := run_ub (s := { u with ub := true }) rfl hb
      rw [h2] at hu; cases hu
    · next hbg =>
      cases hv
      obtain ⟨t, ht, _⟩ := (grows_run (allInv_step (allInv_run ha) (l := .save m) (by unfold wStep; simp_all)) hb).sub
      refine ⟨t.map req, ?_, u, ha, by simpa using hbg⟩
      rw [← sub_handed h, ← sub_handed ha, ht]
      simp [pushTask, req]

theorem handed_save_more {a b : List (WLabel M)} {m : M} {s : WState M} (h : wRun WState.start (a ++ .save m :: b) = some s) (hu : s.ub = false) :
    handed 0 0 (a ++ [.save m]) = handed 0 0 a ++ [.log m] := by
  have e : a ++ .save m :: b = (a ++ [.save m]) ++ b := by simp
  rw [e] at h
  obtain ⟨u, h1, h2⟩ := wRun_append h
  have hu' : u.ub = false := by
    cases hub : u.ub
    · rfl
    · obtain ⟨_, h3⟩ := run_ub hub h2
      rw [h3, hub] at hu; cases hu
  obtain ⟨t, ht, v, hv, hbg⟩ := handed_save (b := []) h1 hu'
  have h4 := congrArg List.length (sub_handed h1)
  have h5 := congrArg List.length (sub_handed hv)
  have h6 : u.sub.length = v.sub.length + 1 := by
    obtain ⟨w, hw, h7⟩ := wRun_append h1
    rw [hv] at hw; cases hw
    have h7' : wStep v (.save m) = some u := by
      rw [wRun] at h7
      obtain ⟨w, hw, h8⟩ := Option.bind_eq_some_iff.1 h7
      cases h8; exact hw
    unfold wStep at h7'
    split at h7'
    · cases h7'
    · simp only [hbg] at h7'
      cases h7'
      simp [pushTask]
  rw [ht] at h4
  simp at h4 h5
  have : t = [] := by
    cases t with
    | nil => rfl
    | cons _ _ => simp at h4; omega
  rw [ht, this]

/-- C01: messages logged one after the other - in particular by one thread - are processed in that order by every sink. -/
theorem C01_program_order {a b c : List (WLabel M)} {x y : M} {s : WState M}
    (h : wRun WState.start (a ++ .save x :: b ++ .save y :: c) = some s) (hu : s.ub = false)
    (hn : ((handed 0 0 (a ++ .save x :: b ++ .save y :: c)).flatMap Req.gives).Nodup) (i : Nat)
    (hx : .log x ∈ received (s.sk i)) (hy : .log y ∈ received (s.sk i)) : [.log x, .log y].Sublist (received (s.sk i)) := by
  refine pair_of_sublist (C01_order h i) hn ?_ hx hy
  obtain ⟨t, ht, u, hv, hbg⟩ := handed_save (a := a ++ .save x :: b) h hu
  have hu' : u.ub = false := by
    obtain ⟨w, hw, h2⟩ := wRun_append h
    rw [hv] at hw; cases hw
    cases hub : u.ub
    · rfl
    · obtain ⟨h3, _⟩ := run_ub hub h2
      cases h3
  obtain ⟨t', ht', _⟩ := handed_save hv hu'
  rw [ht, ht']
  simp only [List.flatMap_append, List.flatMap_cons, Req.gives, List.append_assoc, List.cons_append, List.nil_append]
  refine List.Sublist.trans ?_ (List.sublist_append_right _ _)
  refine List.Sublist.cons_cons _ ?_
  refine List.Sublist.trans ?_ (List.sublist_append_right _ _)
  exact List.Sublist.cons_cons _ (List.nil_sublist _)

/-! ### Ends of attachments: C03, C04, C05, C07 -/

theorem received_exited {s : WState M} (hi : AllInv s) {i : Nat} (he : (s.sk i).exited = true) : received (s.sk i) = sentMsgs (s.sk i) :=
  let ⟨h1, h2⟩ := (hi.w.sinks.loc i).exit he
  received_drained h1 h2

/-- A sink that nobody owns or is destroying has been destroyed. -/
theorem destroyed_of {s : WState M} (hi : AllInv s) {i : Nat} (hn : i < s.n) (ha : i ∉ s.att) (hc : ¬ clientUses s i)
    (hh : s.wpc.holds i = false) (hw : waitsOn s i = false) : (s.sk i).destroyed = true ∧ (s.sk i).exited = true := by
  have ho : owned s i = false := by
    cases ho : owned s i
    · rfl
    · rcases owned_iff.1 ho with h | h | h | h
      · exact absurd (Or.inl h) hc
      · exact absurd h ha
      · exact absurd (Or.inr (Or.inl h)) hc
      · rw [hh] at h; cases h
  have hst : (s.sk i).stopSent = true := by
    have := hi.w.sinks.own i hn
    rw [ho] at this
    cases hst : (s.sk i).stopSent
    · rw [hst] at this; cases this
    · rfl
  have hd : (s.sk i).destroyed = true := by
    cases hd : (s.sk i).destroyed
    · rcases hi.w.sinks.des i hst hd with h | h
      · exact absurd (Or.inr (Or.inr h)) hc
      · rw [hw] at h; cases h
    · rfl
  exact ⟨hd, (hi.w.sinks.loc i).des hd⟩

theorem ended_facts {s : WState M} (hi : AllInv s) (hw : s.wpc = .ended) : s.completed = s.sub.length := by
  obtain ⟨pre, hp, _⟩ := hi.w.book.ended hw
  have hle := hi.w.book.le
  unfold started at hle
  have h1 : (s.sub.take s.completed).length = pre.length + 1 := by rw [hp]; simp
  rw [List.length_take] at h1
  have h2 : s.sub[pre.length]? = some .done := by
    have : (s.sub.take s.completed)[pre.length]? = some .done := by rw [hp]; simp
    rw [List.getElem?_take] at this
    split at this
    · exact this
    · cases this
  have := hi.last _ h2
  omega

/-- C03: when the destructor of the worker has returned, every sink that no client keeps alive has been destroyed and has processed
everything the specification gives it; whatever happens afterwards changes nothing. -/
theorem C03_partial {ls : List (WLabel M)} {s : WState M} (h : wRun WState.start ls = some s) (hp : s.phase = .returned) (i : Nat)
    (hn : i < s.n) (hc : ¬ clientUses s i) :
    (s.sk i).destroyed = true ∧ received (s.sk i) = gets i (handed 0 0 ls) ∧
    ∀ l s', wRun s l = some s' → received (s'.sk i) = received (s.sk i) := by
  have hi := allInv_run h
  have hg := hi.w.book.gone (by rw [hp]; rfl)
  have ha := hi.x.retAtt hp
  have hd := destroyed_of hi hn (by rw [ha]; simp) hc (by rw [hg.2]; rfl) (by unfold waitsOn; rw [hg.2, hp]; rfl)
  have hset : settled s := Or.inr (Or.inl hg.2)
  have he : received (s.sk i) = gets i (handed 0 0 ls) := by rw [received_exited hi hd.2, sent_settled h hset]
  refine ⟨hd.1, he, ?_⟩
  intro l s' hl
  obtain ⟨t, ht⟩ := (grows_run hi hl).done i
  obtain ⟨r, hr⟩ := handed_append h hl
  have h1 := C02_prefix (wRun_append' h hl) i
  have hfin : ∃ y ∈ handed 0 0 ls, y.final = true := by
    rw [← sub_handed h]
    rcases settled_final hi.w.book hset with ⟨y, hy, hf⟩ | hf
    · exact ⟨y, by rw [reqs_split s (started s)]; exact List.mem_append_left _ hy, hf⟩
    · obtain ⟨pre, hpp, _⟩ := hi.w.book.ended hg.2
      refine ⟨.close, List.mem_map.2 ⟨.done, ?_, rfl⟩, rfl⟩
      exact List.mem_of_mem_take (by rw [hpp]; simp)
  rw [hr, gets_final i _ _ hfin, ← he] at h1
  have h2 : received (s.sk i) <+: received (s'.sk i) := by
    unfold received; rw [ht, List.filterMap_append]; exact List.prefix_append _ _
  exact h1.eq_of_length (Nat.le_antisymm h1.length_le h2.length_le)

/-- C03: in particular everything handed to the worker before its destructor began. -/
theorem C03_before_partial {l1 l2 : List (WLabel M)} {s : WState M} (h : wRun WState.start (l1 ++ .dtor :: l2) = some s)
    (hp : s.phase = .returned) (i : Nat) (hn : i < s.n) (hc : ¬ clientUses s i) : gets i (handed 0 0 l1) <+: received (s.sk i) := by
  rw [(C03_partial h hp i hn hc).2.1]
  obtain ⟨u, ha, hb⟩ := wRun_append h
  obtain ⟨t, ht⟩ := handed_append ha hb
  rw [ht]; exact gets_mono i _ _

/-- What the end of an attachment implies. -/
theorem end_final {ls : List (WLabel M)} {s : WState M} (h : wRun WState.start ls = some s) {p i : Nat} (hp : p < s.completed) {t : WTask M}
    (ht : s.sub[p]? = some t) (hg : (req t).gives = []) (he : (req t).endsFor i = true) (ha : .add i ∉ s.sub.drop p) :
    (∀ n, p < n → attached i (reqs s n) = false) ∧ gets i (handed 0 0 ls) = gets i ((handed 0 0 ls).take p) := by
  have hna : ∀ n, .attach i ∉ ((s.sub.take n).drop (p + 1)).map req := by
    intro n hm
    obtain ⟨x, hx, hxe⟩ := List.mem_map.1 hm
    cases x <;> cases hxe
    refine ha ?_
    rw [List.drop_take] at hx
    have hx' := List.mem_of_mem_take hx
    have : s.sub.drop (p + 1) = (s.sub.drop p).drop 1 := by rw [List.drop_drop]
    rw [this] at hx'
    exact List.mem_of_mem_drop hx'
  have hat : attached i (reqs s (p + 1)) = false := by rw [reqs_succ ht, attached_snoc, he]; simp
  have hspl : ∀ n, p < n → reqs s n = reqs s (p + 1) ++ ((s.sub.take n).drop (p + 1)).map req := by
    intro n hn
    rw [reqs, reqs, ← List.map_append]
    congr 1
    have e := List.take_append_drop (p + 1) (s.sub.take n)
    rw [List.take_take, Nat.min_eq_left (by omega)] at e
    exact e.symm
  have hatt : ∀ n, p < n → attached i (reqs s n) = false := by
    intro n hn
    rw [hspl n hn]
    exact attached_never _ (hna n) _ hat
  refine ⟨hatt, ?_⟩
  have hi := allInv_run h
  have hlen : p < s.sub.length := (List.getElem?_eq_some_iff.1 ht).1
  have hall : s.sub.map req = reqs s (p + 1) ++ ((s.sub.take s.sub.length).drop (p + 1)).map req := by
    rw [← hspl _ hlen, reqs, List.take_length]
  have h1 : gets i (handed 0 0 ls) = gets i (reqs s (p + 1)) := by
    rw [← sub_handed h, hall]
    exact gets_never _ _ hat (hna _)
  have hnf : ∀ y ∈ reqs s p, y.final = false := by
    refine noFinal_reqs ?_
    intro x hx
    by_cases hw : s.wpc = .ended
    · obtain ⟨pre, hpp, hpre⟩ := hi.w.book.ended hw
      refine hpre x ?_
      have h2 : s.sub.take p = (s.sub.take s.completed).take p := by rw [List.take_take, Nat.min_eq_left (by omega)]
      have h3 : (s.sub.take s.completed).length = pre.length + 1 := by rw [hpp]; simp
      rw [List.length_take] at h3
      rw [h2, hpp, List.take_append_of_le_length (by omega)] at hx
      exact List.mem_of_mem_take hx
    · refine hi.w.book.notFinal hw x ?_
      exact List.mem_of_mem_take (i := p) (by rw [List.take_take, Nat.min_eq_left (by omega)]; exact hx)
  rw [h1, reqs_succ ht, gets_snoc i _ _ hnf, hg, reqs_handed h]
  simp

/-- Common part of C04 and C05. `c` is the call, at position `p` among the requests. -/
theorem end_call {ls : List (WLabel M)} {s : WState M} (h : wRun WState.start ls = some s) {k p i : Nat} {c : WCall}
    (hk : s.calls[k]? = some c) (hr : c.returned = true) (hp : c.pos = some p)
    (hg : (req (kindTask c.kind : WTask M)).gives = []) (he : (req (kindTask c.kind : WTask M)).endsFor i = true) (ha : .add i ∉ s.sub.drop p) (hn : i < s.n) :
    received (s.sk i) <+: gets i ((handed 0 0 ls).take p) ∧ i ∉ s.att ∧ sentMsgs (s.sk i) = gets i ((handed 0 0 ls).take p) ∧
    (¬ clientUses s i → s.wpc ≠ .rmHeld i → s.wpc ≠ .rmWait i →
      (s.sk i).destroyed = true ∧ received (s.sk i) = gets i ((handed 0 0 ls).take p)) := by
  have hi := allInv_run h
  have hmem : c ∈ s.calls := List.mem_iff_getElem?.2 ⟨k, hk⟩
  have ht := hi.w.calls.pos c hmem p hp
  have hlen : p < s.sub.length := (List.getElem?_eq_some_iff.1 ht).1
  have hpc : p < s.completed := by
    have := hi.w.calls.ret c hmem hr
    unfold ready at this
    rw [hp] at this
    simp only [Bool.or_eq_true, decide_eq_true_eq] at this
    rcases this with h1 | h1
    · exact h1
    · rw [ended_facts hi (hi.w.book.gone h1).2]; exact hlen
  obtain ⟨h1, h2⟩ := end_final h hpc ht hg he ha
  have hna : i ∉ s.att := by
    intro hm
    have := hi.x.attSub i (Or.inl hm)
    rw [h1 _ hpc] at this; cases this
  have hsent : sentMsgs (s.sk i) = gets i ((handed 0 0 ls).take p) := by
    rw [← h2, ← sub_handed h, reqs_split s (started s)]
    have hgot := hi.w.deliver.got i
    have hpe : pend i s.wpc = [] := by
      cases hw : s.wpc with
      | sending x r =>
        have : i ∉ r := fun hm => hna ((hi.w.sinks.rest x r hw).1 i hm)
        simp [pend, this]
      | _ => rfl
    rw [hpe, List.append_nil] at hgot
    have hst : p < started s := by unfold started; omega
    rw [hgot]
    refine (gets_never _ _ (h1 _ hst) ?_).symm
    intro hm
    obtain ⟨x, hx, hxe⟩ := List.mem_map.1 hm
    cases x <;> cases hxe
    refine ha ?_
    have : s.sub.drop (started s) = (s.sub.drop p).drop (started s - p) := by rw [List.drop_drop]; congr 1; omega
    rw [this] at hx
    exact List.mem_of_mem_drop hx
  refine ⟨?_, hna, hsent, ?_⟩
  · rw [← h2]; exact C02_prefix h i
  · intro hc hw1 hw2
    have hcl : ¬ clearsNow s i := by
      intro hcl
      have := hi.x.attSub i (Or.inr hcl)
      rw [h1 _ hpc] at this; cases this
    have hh : s.wpc.holds i = false := by
      cases hw : s.wpc <;> simp [WPc.holds]
      intro e; subst e; exact hw1 hw
    have hwt : waitsOn s i = false := by
      unfold waitsOn
      have a1 : pcWaits i s.wpc = false := by
        cases hw : s.wpc <;> simp [pcWaits]
        · intro e; subst e; exact hw2 hw
        · intro e; subst e; exact hcl (Or.inl ⟨_, hw⟩)
      have a2 : phaseWaits i s.phase = false := by
        cases hw : s.phase <;> simp [phaseWaits]
        intro e; subst e; exact hcl (Or.inr hw)
      rw [a1, a2]; rfl
    obtain ⟨d1, d2⟩ := destroyed_of hi hn hna hc hh hwt
    refine ⟨d1, ?_⟩
    rw [received_exited hi d2, hsent]

theorem handed_take {a b : List (WLabel M)} {u s : WState M} (ha : wRun WState.start a = some u) (hb : wRun u b = some s) :
    (handed 0 0 (a ++ b)).take u.sub.length = handed 0 0 a := by
  obtain ⟨t, ht⟩ := handed_append ha hb
  have := congrArg List.length (sub_handed ha)
  rw [List.length_map] at this
  rw [ht, this, List.take_left]

/-- C04, for every later moment. -/
theorem remove_main {l1 l2 : List (WLabel M)} {u s : WState M} {i : Nat} (h1 : wRun WState.start l1 = some u) (hb : u.phase.bgNull = false)
    (h2 : wRun u (.remove i :: l2) = some s) {c : WCall} (hk : s.calls[u.calls.length]? = some c) (hr : c.returned = true) (l3 : List (WLabel M)) (s' : WState M)
    (h3 : wRun s l3 = some s') : received (s'.sk i) <+: gets i (handed 0 0 l1) ∧ i ∉ s'.att ∧ sentMsgs (s'.sk i) = gets i (handed 0 0 l1) ∧
      (¬ clientUses s' i → s'.wpc ≠ .rmHeld i → s'.wpc ≠ .rmWait i →
      (s'.sk i).destroyed = true ∧ received (s'.sk i) = gets i (handed 0 0 l1)) := by
  have hiu := allInv_run h1
  have h23 : wRun u ((.remove i :: l2) ++ l3) = some s' := wRun_append' h2 h3
  have h0 := h23
  rw [List.cons_append, wRun] at h23
  obtain ⟨v, hv, h4⟩ := Option.bind_eq_some_iff.1 h23
  have hiv := allInv_step hiu hv
  unfold wStep at hv
  split at hv
  · cases hv
  · simp only at hv
    split at hv
    · next hin =>
      have hret : u.phase ≠ .returned := by intro e; rw [e] at hb; cases hb
      simp only [beginCall, hret, hb, if_false, Option.some.injEq, Bool.false_eq_true] at hv
      have hkv : v.calls[u.calls.length]? = some ⟨.remove i, some u.sub.length, false⟩ := by rw [← hv]; simp [pushTask]
      have hsub : v.sub = u.sub ++ [.remove i] := by rw [← hv]; rfl
      have hvn : v.n = u.n := by rw [← hv]; rfl
      obtain ⟨b1, hb1, _⟩ := (grows_run hiv (wRun_append' (a := []) rfl h4)).calls _ _ hkv
      -- the call in s
      have hc : c.kind = .remove i ∧ c.pos = some u.sub.length := by
        have h2' := h2
        rw [wRun] at h2'
        obtain ⟨v', hv', h2'⟩ := Option.bind_eq_some_iff.1 h2'
        have : v' = v := by
          unfold wStep at hv'
          split at hv'
          · cases hv'
          · simp only [hin, if_true, beginCall, hret, hb, if_false, Option.some.injEq, Bool.false_eq_true] at hv'
            rw [← hv, ← hv']
        rw [this] at h2'
        obtain ⟨b2, hb2, _⟩ := (grows_run hiv h2').calls _ _ hkv
        rw [hb2] at hk
        cases hk
        exact ⟨rfl, rfl⟩
      obtain ⟨b3, hb3, hb3'⟩ := (grows_run (allInv_run (wRun_append' h1 h2)) h3).calls _ _ hk
      have hrun := wRun_append' h1 h0
      have hgr := grows_run hiv h4
      obtain ⟨t, ht, _⟩ := hgr.sub
      have hsp : s'.sub[u.sub.length]? = some (.remove i) := by
        rw [ht, hsub]; simp
      have hna := (allInv_run hrun).x.rmNoAdd _ _ hsp
      have := end_call hrun (i := i) hb3 (hb3' hr) hc.2 (by rw [hc.1]; rfl) (by rw [hc.1]; simp [kindTask, req, Req.endsFor]) hna
        (by have := hgr.n; omega)
      rw [handed_take h1 h0] at this
      exact this
    · cases hv

/-- C04: `removeSink(i)` is called after the schedule `l1` and has returned in `s`. The sink is detached; now and at every later
moment it has processed an initial part of what was due to it before the call, nothing else. If no client keeps it alive (and no
other removal of the same sink is in progress) it has been destroyed and has processed all of that. -/
theorem C04_partial {l1 l2 : List (WLabel M)} {u s : WState M} {i : Nat} (h1 : wRun WState.start l1 = some u) (hb : u.phase.bgNull = false)
    (h2 : wRun u (.remove i :: l2) = some s) {c : WCall} (hk : s.calls[u.calls.length]? = some c) (hr : c.returned = true) :
    i ∉ s.att ∧ (∀ l3 s', wRun s l3 = some s' → received (s'.sk i) <+: gets i (handed 0 0 l1)) ∧
    (¬ clientUses s i → s.wpc ≠ .rmHeld i → s.wpc ≠ .rmWait i →
      (s.sk i).destroyed = true ∧ received (s.sk i) = gets i (handed 0 0 l1)) := by
  obtain ⟨_, m2, _, m3⟩ := remove_main h1 hb h2 hk hr [] s rfl
  exact ⟨m2, fun l3 s' h3 => (remove_main h1 hb h2 hk hr l3 s' h3).1, m3⟩

/-- C04: the other sinks are unaffected: what they get does not depend on the removal. -/
theorem C04_others {i j : Nat} (hij : j ≠ i) (a b : List (Req M)) : gets j (a ++ .detach i :: b) = gets j (a ++ b) := by
  have key : ∀ (l p q : List (Req M)), attached j p = attached j q → getsFrom j p l = getsFrom j q l := by
    intro l
    induction l with
    | nil => intro p q _; rfl
    | cons r l ih =>
      intro p q h
      rw [getsFrom, getsFrom, h, ih (p ++ [r]) (q ++ [r]) (by rw [attached_snoc, attached_snoc, h])]
  by_cases h : ∃ y ∈ a, y.final = true
  · rw [gets_final _ _ _ h, gets_final _ _ _ h]
  · have h' : ∀ y ∈ a, y.final = false := by
      intro y hy
      cases hf : y.final
      · rfl
      · exact absurd ⟨y, hy, hf⟩ h
    have e : served (Req.detach i :: b) = .detach i :: served b := rfl
    rw [gets, gets, served_noFinal _ _ h', served_noFinal _ _ h', e, getsFrom_append, getsFrom_append, getsFrom]
    congr 1
    have hd : (Req.detach i : Req M).endsFor j = false := by simp [Req.endsFor]; exact fun e => hij e.symm
    rw [key (served b) ([] ++ a ++ [Req.detach i]) ([] ++ a) (by rw [attached_snoc, hd]; simp [Req.startsFor])]
    simp [Req.gives]

/-- C05, for every later moment. -/
theorem clear_main {l1 l2 : List (WLabel M)} {u s : WState M} (h1 : wRun WState.start l1 = some u) (hb : u.phase.bgNull = false)
    (h2 : wRun u (.clear :: l2) = some s) {c : WCall} (hk : s.calls[u.calls.length]? = some c) (hr : c.returned = true) (i : Nat) (hin : i < u.n) (l3 : List (WLabel M)) (s' : WState M)
    (h3 : wRun s l3 = some s') : received (s'.sk i) <+: gets i (handed 0 0 l1) ∧ i ∉ s'.att ∧ sentMsgs (s'.sk i) = gets i (handed 0 0 l1) ∧
      (¬ clientUses s' i → s'.wpc ≠ .rmHeld i → s'.wpc ≠ .rmWait i →
      (s'.sk i).destroyed = true ∧ received (s'.sk i) = gets i (handed 0 0 l1)) := by
  have hiu := allInv_run h1
  have h0 : wRun u ((.clear :: l2) ++ l3) = some s' := wRun_append' h2 h3
  have h2' := h2
  rw [wRun] at h2'
  obtain ⟨v, hv, h4⟩ := Option.bind_eq_some_iff.1 h2'
  have hiv := allInv_step hiu hv
  unfold wStep at hv
  split at hv
  · cases hv
  · have hret : u.phase ≠ .returned := by intro e; rw [e] at hb; cases hb
    simp only [beginCall, hret, hb, if_false, Option.some.injEq, Bool.false_eq_true] at hv
    have hkv : v.calls[u.calls.length]? = some ⟨.clear, some u.sub.length, false⟩ := by rw [← hv]; simp
    have hsub : v.sub = u.sub ++ [.clear] := by rw [← hv]; rfl
    have hvn : v.n = u.n := by rw [← hv]; rfl
    obtain ⟨b2, hb2, _⟩ := (grows_run hiv h4).calls _ _ hkv
    have hc : c.kind = .clear ∧ c.pos = some u.sub.length := by
      rw [hb2] at hk
      cases hk
      exact ⟨rfl, rfl⟩
    obtain ⟨b3, hb3, hb3'⟩ := (grows_run (allInv_run (wRun_append' h1 h2)) h3).calls _ _ hk
    have hrun := wRun_append' h1 h0
    have hgr := grows_run hiv (wRun_append' h4 h3)
    obtain ⟨t, ht, htn⟩ := hgr.sub
    have hna : .add i ∉ s'.sub.drop u.sub.length := by
      rw [ht, hsub, List.append_assoc, List.drop_left]
      intro hm
      rcases List.mem_append.1 hm with hm | hm
      · rw [List.mem_singleton] at hm; cases hm
      · have := htn i hm; omega
    have := end_call hrun (i := i) hb3 (hb3' hr) hc.2 (by rw [hc.1]; rfl) (by rw [hc.1]; rfl) hna (by have := hgr.n; omega)
    rw [handed_take h1 h0] at this
    exact this

/-- C05: `removeAllSinks()` is called after the schedule `l1` and has returned in `s`. Every sink created before the call is
detached, and now and at every later moment has processed an initial part of what was due to it before the call, nothing else. If no
client keeps it alive (and no removal of that sink is in progress) it has been destroyed and has processed all of that. -/
theorem C05_partial {l1 l2 : List (WLabel M)} {u s : WState M} (h1 : wRun WState.start l1 = some u) (hb : u.phase.bgNull = false)
    (h2 : wRun u (.clear :: l2) = some s) {c : WCall} (hk : s.calls[u.calls.length]? = some c) (hr : c.returned = true) (i : Nat) (hin : i < u.n) :
    i ∉ s.att ∧ (∀ l3 s', wRun s l3 = some s' → received (s'.sk i) <+: gets i (handed 0 0 l1)) ∧
    (¬ clientUses s i → s.wpc ≠ .rmHeld i → s.wpc ≠ .rmWait i →
      (s.sk i).destroyed = true ∧ received (s.sk i) = gets i (handed 0 0 l1)) := by
  obtain ⟨_, m2, _, m3⟩ := clear_main h1 hb h2 hk hr i hin [] s rfl
  exact ⟨m2, fun l3 s' h3 => (clear_main h1 hb h2 hk hr i hin l3 s' h3).1, m3⟩

/-! ### C06 -/

/-- C06: `addSink` has returned sink i after the schedule `l1`, and no removal of it (nor a fatal event) has been requested since. A
message logged then is processed by the sink, right after what was due to it before. -/
theorem C06_effective {l1 l2 : List (WLabel M)} {u s : WState M} {m : M} {i k : Nat} {c : WCall} (h1 : wRun WState.start l1 = some u)
    (hk : u.calls[k]? = some c) (hc : c.kind = .add i) (hr : c.returned = true)
    (hend : ∀ a b, handed 0 0 l1 = a ++ .attach i :: b → ∀ r ∈ b, r.endsFor i = false)
    (h2 : wRun u (.save m :: l2) = some s) (hu : s.ub = false) :
    (∃ t, gets i (handed 0 0 (l1 ++ .save m :: l2)) = gets i (handed 0 0 l1) ++ .log m :: t) ∧
    (settled s → (s.sk i).q = [] → (s.sk i).running = none → ∃ t, received (s.sk i) = gets i (handed 0 0 l1) ++ .log m :: t) := by
  have hi := allInv_run h1
  have hrun := wRun_append' h1 h2
  obtain ⟨t, ht, u', hu1, hbg⟩ := handed_save hrun hu
  rw [h1] at hu1; cases hu1
  have hmem : c ∈ u.calls := List.mem_iff_getElem?.2 ⟨k, hk⟩
  have hdone : .done ∉ u.sub := fun hd => by rw [hi.w.book.closed.2 hd] at hbg; cases hbg
  obtain ⟨p, hp⟩ : ∃ p, c.pos = some p := by
    cases hp : c.pos with
    | none => have := hi.npos c hmem hp; rw [hbg] at this; cases this
    | some p => exact ⟨p, rfl⟩
  have hsub := hi.w.calls.pos c hmem p hp
  rw [hc] at hsub
  have hne : u.wpc ≠ .ended := by
    intro hw
    obtain ⟨pre, hpre, _⟩ := hi.w.book.ended hw
    exact hdone (List.mem_of_mem_take (by rw [hpre]; simp))
  have hpc : p < u.completed := by
    have := hi.w.calls.ret c hmem hr
    unfold ready at this
    rw [hp] at this
    simp only [Bool.or_eq_true, decide_eq_true_eq] at this
    rcases this with h | h
    · exact h
    · exact absurd (hi.w.book.gone h).2 hne
  have hspl : handed 0 0 l1 = reqs u p ++ .attach i :: (u.sub.drop (p + 1)).map req := by
    rw [← sub_handed h1, reqs_split u (p + 1), reqs_succ hsub]
    simp [req, kindTask]
  have hb := hend _ _ hspl
  have hat : attached i (handed 0 0 l1) = true := (attached_iff _ _).2 ⟨_, _, hspl, hb⟩
  have hnf : ∀ r ∈ handed 0 0 l1, r.final = false := by
    intro r hrm
    rw [hspl] at hrm
    rcases List.mem_append.1 hrm with hrm | hrm
    · refine noFinal_reqs (n := p) ?_ r hrm
      intro x hx
      exact hi.w.book.notFinal hne x (List.mem_of_mem_take (i := p) (by rw [List.take_take, Nat.min_eq_left (by omega)]; exact hx))
    · rcases List.mem_cons.1 hrm with hrm | hrm
      · rw [hrm]; rfl
      · have h3 := hb r hrm
        obtain ⟨x, hx, hxe⟩ := List.mem_map.1 hrm
        cases x <;> subst hxe <;> simp [req, Req.final, Req.endsFor] at h3 ⊢
        exact absurd (List.mem_of_mem_drop hx) hdone
  have main : ∃ t, gets i (handed 0 0 (l1 ++ .save m :: l2)) = gets i (handed 0 0 l1) ++ .log m :: t := by
    obtain ⟨rest, hrest, _⟩ := C02_each i (handed 0 0 l1) t m hnf
    refine ⟨rest, ?_⟩
    rw [ht, hrest, hat]; simp
  refine ⟨main, ?_⟩
  intro hs hq hrn
  rw [C02_complete hrun hs i hq hrn]
  exact main

/-- C06: messages that entered the worker before `addSink` was called never reach the new sink. -/
theorem C06_not_before {l1 l2 : List (WLabel M)} {u s : WState M} (h1 : wRun WState.start l1 = some u) (hb : u.phase.bgNull = false)
    (h2 : wRun u (.add :: l2) = some s) :
    ∃ t, handed 0 0 (l1 ++ .add :: l2) = handed 0 0 l1 ++ .attach u.n :: t ∧ (received (s.sk u.n)).Sublist (t.flatMap Req.gives) := by
  have hi := allInv_run h1
  have hrun := wRun_append' h1 h2
  have h2' := h2
  rw [wRun] at h2'
  obtain ⟨v, hv, h4⟩ := Option.bind_eq_some_iff.1 h2'
  have hiv := allInv_step hi hv
  have hsub : v.sub = u.sub ++ [.add u.n] := by
    unfold wStep at hv
    split at hv
    · cases hv
    · have hret : u.phase ≠ .returned := by intro e; rw [e] at hb; cases hb
      simp only [addStep, beginCall, hret, hb, if_false, Option.some.injEq, Bool.false_eq_true] at hv
      rw [← hv]; rfl
  obtain ⟨t, ht, _⟩ := (grows_run hiv h4).sub
  have hH : handed 0 0 (l1 ++ .add :: l2) = handed 0 0 l1 ++ .attach u.n :: t.map req := by
    rw [← sub_handed hrun, ← sub_handed h1, ht, hsub]; simp [req]
  refine ⟨t.map req, hH, ?_⟩
  have hna : .attach u.n ∉ handed 0 0 l1 := by
    rw [← sub_handed h1]
    intro hm
    obtain ⟨x, hx, hxe⟩ := List.mem_map.1 hm
    cases x <;> cases hxe
    exact absurd (calls_idsSub hi.w.calls hx) (Nat.lt_irrefl _)
  refine (C02_prefix hrun u.n).sublist.trans ?_
  rw [hH]
  generalize handed 0 0 l1 = a at hna
  generalize t.map req = b
  have h0 : ∀ l, .attach u.n ∉ l → getsFrom (M := M) u.n [] l = [] := fun l hl => getsFrom_never l hl [] rfl
  by_cases h : ∃ y ∈ a, y.final = true
  · rw [gets_final _ _ _ h, gets, h0 _ (fun hx => hna (served_sub _ _ hx))]
    exact List.nil_sublist _
  · have h' : ∀ y ∈ a, y.final = false := by
      intro y hy
      cases hf : y.final
      · rfl
      · exact absurd ⟨y, hy, hf⟩ h
    have e : served (Req.attach u.n :: b) = .attach u.n :: served b := rfl
    rw [gets, served_noFinal _ _ h', e, getsFrom_append, h0 _ hna, getsFrom, List.nil_append]
    have : (if attached u.n ([] ++ a) = true then (Req.attach u.n : Req M).gives else []) = [] := by split <;> rfl
    rw [this, List.nil_append]
    exact (getsFrom_sublist _ _ _).trans (flatMap_prefix Req.gives (served_prefix b)).sublist

/-! ### C07, C08 -/

/-- C07: when the worker ends the process, the request at which it stopped is a fatal one, and every sink that no client keeps alive
has been destroyed and has processed everything due to it before the fatal message, and that message if it was attached. -/
theorem C07_partial {ls : List (WLabel M)} {s : WState M} (h : wRun WState.start ls = some s) (hw : s.wpc = .dead) :
    ∃ pre m post, handed 0 0 ls = pre ++ .fatal m :: post ∧ (∀ r ∈ pre, r.final = false) ∧
      ∀ i, i < s.n → ¬ clientUses s i → (s.sk i).destroyed = true ∧
        received (s.sk i) = gets i pre ++ if attached i pre then [.fatal m] else [] := by
  have hi := allInv_run h
  have ht := hi.w.book.task
  rw [hw] at ht
  obtain ⟨m, hm⟩ := ht
  have hst : started s = s.completed + 1 := by unfold started; rw [hw]; rfl
  have hnf := noFinal_reqs (hi.w.book.notFinal (by rw [hw]; simp))
  refine ⟨reqs s s.completed, m, (s.sub.drop (s.completed + 1)).map req, ?_, hnf, ?_⟩
  · rw [← sub_handed h, reqs_split s (s.completed + 1), reqs_succ hm]; simp [req]
  · intro i hn hc
    have ha : s.att = [] := by
      have := hi.w.deliver.att
      unfold attRel at this
      rw [hw] at this; exact this
    have hph : phaseWaits i s.phase = false := by
      cases hp : s.phase <;> simp [phaseWaits]
      have := (hi.w.book.gone (by rw [hp]; rfl)).2
      rw [hw] at this; cases this
    obtain ⟨d1, d2⟩ := destroyed_of hi hn (by rw [ha]; simp) hc (by rw [hw]; rfl) (by unfold waitsOn; rw [hph, hw]; rfl)
    refine ⟨d1, ?_⟩
    have hgot := hi.w.deliver.got i
    rw [pend_settled (Or.inr (Or.inr hw)), List.append_nil, hst, reqs_succ hm, gets_snoc _ _ _ hnf] at hgot
    rw [received_exited hi d2, hgot]; rfl

/-- C07: the same for every sink, held by a client or not: what it has been sent. -/
theorem dead_sent {ls : List (WLabel M)} {s : WState M} (h : wRun WState.start ls = some s) (hw : s.wpc = .dead) :
    ∃ pre m post, handed 0 0 ls = pre ++ .fatal m :: post ∧ (∀ r ∈ pre, r.final = false) ∧
      ∀ i, sentMsgs (s.sk i) = gets i pre ++ if attached i pre then [.fatal m] else [] := by
  have hi := allInv_run h
  have ht := hi.w.book.task
  rw [hw] at ht
  obtain ⟨m, hm⟩ := ht
  have hst : started s = s.completed + 1 := by unfold started; rw [hw]; rfl
  have hnf := noFinal_reqs (hi.w.book.notFinal (by rw [hw]; simp))
  refine ⟨reqs s s.completed, m, (s.sub.drop (s.completed + 1)).map req, ?_, hnf, ?_⟩
  · rw [← sub_handed h, reqs_split s (s.completed + 1), reqs_succ hm]; simp [req]
  · intro i
    have hgot := hi.w.deliver.got i
    rw [pend_settled (Or.inr (Or.inr hw)), List.append_nil, hst, reqs_succ hm, gets_snoc _ _ _ hnf] at hgot
    rw [hgot]; rfl

/-- C08: no sink ever processes anything after a fatal message. -/
theorem C08_last {ls : List (WLabel M)} {s : WState M} (h : wRun WState.start ls = some s) (i : Nat) (a b : List (Got M)) (m : M)
    (hr : received (s.sk i) = a ++ .fatal m :: b) : b = [] := by
  obtain ⟨t, ht⟩ := C02_prefix h i
  rw [hr, List.append_assoc, List.cons_append] at ht
  exact (List.append_eq_nil_iff.1 (gets_fatal_last ht.symm)).1

/-- C08: only the first fatal message is ever processed, and nothing that entered the worker after it. -/
theorem C08_nothing_later {ls : List (WLabel M)} {s : WState M} (h : wRun WState.start ls = some s) (i : Nat) (pre post : List (Req M)) (m : M)
    (hs : handed 0 0 ls = pre ++ .fatal m :: post) : received (s.sk i) <+: gets i (pre ++ [.fatal m]) := by
  have := C02_prefix h i
  rw [hs] at this
  have e : pre ++ Req.fatal m :: post = (pre ++ [.fatal m]) ++ post := by simp
  rwa [e, gets_final i _ _ ⟨.fatal m, by simp, rfl⟩] at this

/-! ### C55 -/

/-- C55: at every moment stderr holds an initial part of what the specification says. -/
theorem C55_prefix {ls : List (WLabel M)} {s : WState M} (h : wRun WState.start ls = some s) : s.err.map toErr <+: errs (handed 0 0 ls) := by
  rw [(allInv_run h).w.deliver.err, ← sub_handed h, reqs_split s (started s)]
  exact errs_mono _ _

/-- C55: all of it once the worker has nothing to do. -/
theorem C55_complete {ls : List (WLabel M)} {s : WState M} (h : wRun WState.start ls = some s) (hs : settled s) :
    s.err.map toErr = errs (handed 0 0 ls) := by
  have hi := allInv_run h
  rw [hi.w.deliver.err, ← sub_handed h]
  rcases settled_final hi.w.book hs with hf | hf
  · rw [reqs_split s (started s), errs_final _ _ hf]
  · rw [hf]

/-- C55, the meaning of the specification: a message adds a line if and only if no sink is attached at its turn. -/
theorem C55_each (a b : List (Req M)) (m : M) (ha : ∀ r ∈ a, r.final = false) :
    ((∀ i, attached i a = false) → ∃ rest, errs (a ++ .log m :: b) = errs a ++ [.noSinks m] ++ rest) ∧
    (∀ i, attached i a = true → errs (a ++ .log m :: b) = errs a ++ errsFrom (a ++ [.log m]) (served b)) := by
  have key : errs (a ++ .log m :: b) = errs a ++ ((Req.log m).err a ++ errsFrom (a ++ [.log m]) (served b)) := by
    have h1 : served (Req.log m :: b) = .log m :: served b := rfl
    rw [errs, errs, served_noFinal _ _ ha, served_self _ ha, errsFrom_append, h1, errsFrom]
    rfl
  constructor
  · intro h
    refine ⟨errsFrom (a ++ [.log m]) (served b), ?_⟩
    rw [key, Req.err, (nobody_iff a).2 h, if_pos rfl, List.append_assoc]
  · intro i hi
    have : nobody a = false := by
      cases hn : nobody a
      · rfl
      · have := (nobody_iff a).1 hn i; rw [hi] at this; cases this
    rw [key, Req.err, this, if_neg (by simp), List.nil_append]

/-! ### Where the code falls short: sinks that a client keeps alive -/

/-- A sink is added, a client takes `SinkHandle::sink()` and locks it, a message is logged. -/
def heldStart : List (WLabel Nat) := [.add, .work, .ret 0, .hold 0, .save 7]

/-- C03 fails for a sink that a client holds: the destructor of the worker returns, the sink lives on, the message has not been
processed, and it is processed later. -/
theorem C03_negation : ∃ (ls l : List (WLabel Nat)) (s s' : WState Nat) (i : Nat), wRun WState.start ls = some s ∧ s.phase = .returned ∧ i < s.n ∧
    (s.sk i).destroyed = false ∧ received (s.sk i) = [] ∧ gets i (handed 0 0 ls) = [.log 7] ∧
    wRun s l = some s' ∧ received (s'.sk i) = [.log 7] := by
  refine ⟨heldStart ++ [.dtor, .work, .work, .work, .work, .work, .work, .dtor, .work, .dtor, .dtor], [.sinkPop 0, .sinkFin 0], _, _, 0, rfl,
    rfl, by decide, rfl, rfl, rfl, rfl, rfl⟩

/-- C04 fails for a sink that a client holds: `removeSink` returns before the sink has processed the message. -/
theorem C04_negation : ∃ (l1 l2 l : List (WLabel Nat)) (u s s' : WState Nat) (i : Nat), wRun WState.start l1 = some u ∧
    u.phase.bgNull = false ∧ wRun u (.remove i :: l2) = some s ∧ (s.calls[u.calls.length]?).map (·.returned) = some true ∧
    (s.sk i).destroyed = false ∧ received (s.sk i) = [] ∧ gets i (handed 0 0 l1) = [.log 7] ∧
    wRun s l = some s' ∧ received (s'.sk i) = [.log 7] := by
  refine ⟨heldStart, [.work, .work, .work, .work, .work, .ret 1], [.sinkPop 0, .sinkFin 0], _, _, _, 0, rfl, rfl, rfl, rfl, rfl, rfl, rfl, rfl, rfl⟩

/-- C05 fails in the same way. -/
theorem C05_negation : ∃ (l1 l2 l : List (WLabel Nat)) (u s s' : WState Nat) (i : Nat), wRun WState.start l1 = some u ∧
    u.phase.bgNull = false ∧ wRun u (.clear :: l2) = some s ∧ (s.calls[u.calls.length]?).map (·.returned) = some true ∧ i < u.n ∧
    (s.sk i).destroyed = false ∧ received (s.sk i) = [] ∧ gets i (handed 0 0 l1) = [.log 7] ∧
    wRun s l = some s' ∧ received (s'.sk i) = [.log 7] := by
  refine ⟨heldStart, [.work, .work, .work, .work, .work, .work, .ret 1], [.sinkPop 0, .sinkFin 0], _, _, _, 0, rfl, rfl, rfl, rfl, by decide, rfl, rfl, rfl, rfl, rfl⟩

/-- C07 fails for a sink that a client holds: the process ends, and neither the message logged before nor the fatal message has been
processed. -/
theorem C07_negation : ∃ (ls : List (WLabel Nat)) (s : WState Nat) (i : Nat), wRun WState.start ls = some s ∧ s.wpc = .dead ∧ i < s.n ∧
    (s.sk i).destroyed = false ∧ received (s.sk i) = [] ∧ gets i (handed 0 0 ls) = [.log 7, .fatal 8] := by
  refine ⟨heldStart ++ [.fatal 8, .work, .work, .work, .work, .work, .work, .work, .work], _, 0, rfl, rfl, by decide, rfl, rfl, rfl⟩

/-! ### The hypotheses can be met -/

theorem unused_of {s : WState M} {i : Nat} (h1 : (s.sk i).refs = 0) (h2 : adding s.calls i = false) (h3 : (s.sk i).reaping = false) : ¬ clientUses s i := by
  rintro (h | h | h)
  · rw [h1] at h; cases h
  · rw [h2] at h; cases h
  · rw [h3] at h; cases h

/-- Two sinks; one message for both, one for the first alone, one for nobody; then the worker is destroyed. -/
def demo : List (WLabel Nat) :=
  [.add, .save 1, .add, .work, .ret 0, .work, .save 2, .work, .work, .work, .ret 1, .remove 1, .save 3, .work, .work, .work, .work,
   .sinkPop 0, .work, .work, .sinkPop 1, .sinkFin 1, .sinkPop 1, .sinkFin 1, .work, .ret 2, .work, .work, .work, .dtor, .work, .work,
   .sinkFin 0, .sinkPop 0, .sinkFin 0, .sinkPop 0, .sinkFin 0, .sinkPop 0, .sinkFin 0, .work, .work, .save 4, .work, .dtor, .work, .dtor, .dtor]

example : ∃ s, wRun WState.start demo = some s ∧ s.phase = .returned ∧ s.ub = false ∧ settled s ∧ s.n = 2 ∧
    received (s.sk 0) = [.log 1, .log 2, .log 3] ∧ received (s.sk 1) = [.log 2] ∧ s.err = [.noSinks 4] ∧
    (¬ clientUses s 0) ∧ (¬ clientUses s 1) ∧ ((handed 0 0 demo).flatMap Req.gives).Nodup := by
  exact ⟨_, rfl, rfl, rfl, Or.inr (Or.inl rfl), rfl, rfl, rfl, rfl, unused_of rfl rfl rfl, unused_of rfl rfl rfl, by decide⟩

/-- `C04_partial`: the call returns and the sink is destroyed with both its messages processed. -/
example : ∃ u s, wRun WState.start ([.add, .work, .ret 0, .save 1, .save 2] : List (WLabel Nat)) = some u ∧ u.phase.bgNull = false ∧
    wRun u [.remove 0, .work, .work, .work, .work, .work, .work, .work, .work, .sinkPop 0, .sinkFin 0, .sinkPop 0, .sinkFin 0, .sinkPop 0, .sinkFin 0,
      .work, .ret 1] = some s ∧ (s.calls[u.calls.length]?).map (·.returned) = some true ∧ s.wpc = .idle ∧
    (s.sk 0).destroyed = true ∧ received (s.sk 0) = [.log 1, .log 2] :=
  ⟨_, _, rfl, rfl, rfl, rfl, rfl, rfl, rfl⟩

/-- `C05_partial`. -/
example : ∃ u s, wRun WState.start ([.add, .work, .ret 0, .save 1] : List (WLabel Nat)) = some u ∧ u.phase.bgNull = false ∧
    wRun u [.clear, .save 2, .work, .work, .work, .work, .work, .sinkPop 0, .sinkFin 0, .sinkPop 0, .sinkFin 0, .work, .work, .ret 1, .work] = some s ∧
    (s.calls[u.calls.length]?).map (·.returned) = some true ∧ (s.sk 0).destroyed = true ∧ received (s.sk 0) = [.log 1] ∧ s.err = [.noSinks 2] :=
  ⟨_, _, rfl, rfl, rfl, rfl, rfl, rfl, rfl⟩

/-- `C07_partial`: the process ends with everything processed; the message logged after the fatal one is dropped. -/
example : ∃ s, wRun WState.start ([.add, .work, .ret 0, .save 1, .fatal 8, .save 2, .work, .work, .work, .work, .work, .work, .work,
      .sinkPop 0, .sinkFin 0, .sinkPop 0, .sinkFin 0, .sinkPop 0, .sinkFin 0, .work, .work] : List (WLabel Nat)) = some s ∧ s.wpc = .dead ∧
    (s.sk 0).destroyed = true ∧ received (s.sk 0) = [.log 1, .fatal 8] :=
  ⟨_, rfl, rfl, rfl, rfl⟩

/-- `C06_effective`: message 1 before `addSink`, message 2 after its return. -/
example : ∃ u s c, wRun WState.start ([.save 1, .add, .work, .work, .ret 0] : List (WLabel Nat)) = some u ∧ u.calls[0]? = some c ∧
    c.kind = .add 0 ∧ c.returned = true ∧ handed 0 0 ([.save 1, .add, .work, .work, .ret 0] : List (WLabel Nat)) = [.log 1] ++ .attach 0 :: [] ∧
    wRun u [.save 2, .work, .work, .work, .sinkPop 0, .sinkFin 0] = some s ∧ s.ub = false ∧ settled s ∧ (s.sk 0).q = [] ∧
    (s.sk 0).running = none ∧ received (s.sk 0) = [.log 2] :=
  ⟨_, _, _, rfl, rfl, rfl, rfl, rfl, rfl, rfl, Or.inl ⟨rfl, rfl⟩, rfl, rfl, rfl⟩

end G3.Props
