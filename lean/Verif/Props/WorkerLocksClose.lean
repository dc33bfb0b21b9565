import Verif.Props.ProgramLocks
import Verif.Props.WorkerLocksExamples
/-
C93, the destructor of the worker, with the locks: begun while no other thread is inside the worker's queue, it always finishes, and by then every sink has got
everything that was handed over before.
-/
namespace G3.Props
open G3 G3.Spec

variable {M : Type} {n : Nat} {k k' : KState M}

/-- The thread of a sink waits for a fatal event only if one was handed over. -/
theorem blocked_step {s s' : WState M} (h : ∀ i, (s.sk i).blocked = true → ∃ m, WTask.fatal m ∈ s.sub) (t : Tr s s') :
    ∀ i, (s'.sk i).blocked = true → ∃ m, WTask.fatal m ∈ s'.sub := by
  intro i hb
  have upd : ∀ {sk : Nat → SinkSt M} {j : Nat} {f : SinkSt M → SinkSt M}, (∀ x, (f x).blocked = true → x.blocked = true) →
      (updSink sk j f i).blocked = true → (sk i).blocked = true := by
    intro sk j f hf e
    unfold updSink at e
    split at e
    · exact hf _ e
    · exact e
  have more : ∀ {l : List (WTask M)}, (∃ m, WTask.fatal m ∈ s.sub) → ∃ m, WTask.fatal m ∈ s.sub ++ l :=
    fun ⟨m, e⟩ => ⟨m, List.mem_append_left _ e⟩
  cases t with
  | sFatal i x m => exact ⟨m, List.mem_append_right _ List.mem_cons_self⟩
  | addQ | addN =>
    first
      | exact more (h i (upd (fun x e => by cases e) hb))
      | exact h i (upd (fun x e => by cases e) hb)
  | _ =>
    first
      | exact h i hb
      | exact more (h i hb)
      | (refine h i (upd (fun x e => ?_) hb)
         exact e)

theorem blocked_run {ws : List (WLabel M)} : ∀ {s s' : WState M}, (∀ i, (s.sk i).blocked = true → ∃ m, WTask.fatal m ∈ s.sub) → wRun s ws = some s' →
    ∀ i, (s'.sk i).blocked = true → ∃ m, WTask.fatal m ∈ s'.sub := by
  induction ws with
  | nil => intro s s' h hr; cases hr; exact h
  | cons l ws ih =>
    intro s s' h hr
    simp only [wRun] at hr
    obtain ⟨u, hu, hr⟩ := Option.bind_eq_some_iff.1 hr
    exact ih (blocked_step h (tr_of_step hu).2.2) hr

/-- The destructor runs, in thread `t`, and no other thread is inside the worker's queue. -/
structure Shut (n : Nat) (t : Nat) (k : KState M) : Prop where
  go : Going n k
  calm : Calm k
  others : OthersOut k
  race : k.race = false
  ub : k.ctl.ub = false
  thr : k.dthr = some t

theorem internal_begins {t : Nat} {w : WLabel M} {x : KTask M} (h : kInternal k (.thr t w)) (hb : begins w x) : False := by
  cases w <;> first | exact h.elim | exact hb.elim

theorem dthr_internal (A : AllInv (abs k)) {l : KLabel M} (hi : kInternal k l) (hs : kStep k l = some k') {t : Nat} (hd : k.dthr = some t) : k'.dthr = some t := by
  cases l with
  | thr u w =>
    unfold kStep at hs
    split at hs
    · cases hs
    · rw [(owed_thr A hi hs).1.d]; exact hd
  | _ => exact (dthr_step (by trivial) hs).1 t hd

theorem ub_internal (A : AllInv (abs k)) {l : KLabel M} (hi : kInternal k l) (hs : kStep k l = some k') (hr : k'.race = false) : k'.ctl.ub = false := by
  obtain ⟨hu0, _, hr0, _⟩ := kStep_sane hs
  unfold kStep at hs
  split at hs
  · cases hs
  cases l with
  | thr t w => rw [(owed_thr A hi hs).1.u]; exact hu0
  | pop =>
    simp only at hs
    split at hs
    · obtain ⟨q, hq, rfl⟩ := Option.map_eq_some_iff.1 hs
      exact hu0
    · cases hs
  | mem l =>
    simp only at hs
    split at hs
    · obtain ⟨_, _, rfl⟩ := Option.map_eq_some_iff.1 hs; exact hu0
    cases l with
    | call t op => cases hs
    | act t =>
      simp only [KState.mem] at hs
      split at hs
      · next j hj =>
        unfold KState.put at hs
        split at hs
        · cases hs; cases hr
        · obtain ⟨q, hq, rfl⟩ := Option.map_eq_some_iff.1 hs
          cases j <;> exact hu0
      · obtain ⟨q, hq, rfl⟩ := Option.map_eq_some_iff.1 hs; exact hu0
    | unlock t =>
      simp only [KState.mem] at hs
      split at hs <;> (obtain ⟨q, hq, rfl⟩ := Option.map_eq_some_iff.1 hs; exact hu0)
    | lock t | notify t u | spurious t => obtain ⟨q, hq, rfl⟩ := Option.map_eq_some_iff.1 hs; exact hu0
  | smem i l =>
    simp only at hs
    split at hs
    · obtain ⟨_, _, rfl⟩ := Option.map_eq_some_iff.1 hs; exact hu0
    cases l with
    | call t op => cases hs
    | act t =>
      simp only [KState.smem] at hs
      split at hs
      · obtain ⟨q, hq, rfl⟩ := Option.map_eq_some_iff.1 hs
        show (if _ then sentOne k.ctl else k.ctl).ub = false
        split <;> exact hu0
      · obtain ⟨q, hq, rfl⟩ := Option.map_eq_some_iff.1 hs; exact hu0
    | unlock t =>
      simp only [KState.smem] at hs
      split at hs <;> (obtain ⟨q, hq, rfl⟩ := Option.map_eq_some_iff.1 hs; exact hu0)
    | lock t | notify t u | spurious t => obtain ⟨q, hq, rfl⟩ := Option.map_eq_some_iff.1 hs; exact hu0

/-- That stays so, and nothing but the two requests of the destructor is handed over. -/
theorem shut_step {t : Nat} (h : Shut n t k) {l : KLabel M} (hi : kInternal k l) (hs : kStep k l = some k') :
    Shut n t k' ∧ ∃ zs : List (WTask M), k'.ctl.sub = k.ctl.sub ++ zs ∧ ∀ z ∈ zs, z = .clear ∨ z = .done := by
  obtain ⟨c', hr⟩ := kcalm_step h.go.inv h.go.all h.calm hs (by
    intro u p e _ v pc hv hvu hp
    subst e
    have hu : k.dthr = some u := hi
    have := h.others v pc hv (by rw [hu]; intro e; injection e with e; exact hvu e.symm) hp
    subst this; rfl)
  have hd' := dthr_internal h.go.all hi hs h.thr
  refine ⟨⟨(going_step h.go hs hr).1, c', ?_, hr, ub_internal h.go.all hi hs hr, hd'⟩, ?_⟩
  · intro v pc hv hd hp
    by_contra hc
    have hb : pc.isIdle = false := by
      cases hx : pc.isIdle with
      | false => rfl
      | true => exact absurd (idle_of hx) hc
    have hdv : k.dthr ≠ some v := by rw [h.thr, ← hd']; exact hd
    rcases busy_back hs hr hp hb with ⟨p, h1, h2⟩ | ⟨w, x, h1, h2⟩ | h1 | h1
    · have := h.others v p hv hdv h1
      subst this
      cases h2
    · subst h1; exact internal_begins hi h2
    · subst h1; exact hdv hi
    · omega
  · match l, wmove hs hr with
    | _, .keep _ e _ => exact ⟨[], by rw [e, List.append_nil], by simp⟩
    | _, .client _ _ _ e => exact ⟨[], by rw [e, List.append_nil], by simp⟩
    | _, .clear _ _ e => exact ⟨[], by rw [e, List.append_nil], by simp⟩
    | _, .final _ _ e => exact ⟨[.done], e, by simp⟩
    | _, .pop _ _ e => exact ⟨[], by rw [e, List.append_nil], by simp⟩
    | _, .inside _ _ _ _ e => exact ⟨[], by rw [e, List.append_nil], by simp⟩
    | _, .put hj _ e =>
      refine ⟨_, e, ?_⟩
      rcases others_early h.go h.others hj rfl with rfl | rfl
      · simp [entry, isEnd, numbered, KTask.task]
      · simp [entry, isEnd]

theorem shut_run {t : Nat} {ms : List (KLabel M)} {k k' : KState M} (hm : KRun k ms k') : Shut n t k →
    Shut n t k' ∧ ∃ zs : List (WTask M), k'.ctl.sub = k.ctl.sub ++ zs ∧ ∀ z ∈ zs, z = .clear ∨ z = .done := by
  induction hm with
  | nil a => intro h; exact ⟨h, [], by simp, by simp⟩
  | cons hi hs _ ih =>
    intro h
    obtain ⟨h1, z1, e1, a1⟩ := shut_step h hi hs
    obtain ⟨h2, z2, e2, a2⟩ := ih h1
    refine ⟨h2, z1 ++ z2, by rw [e2, e1, List.append_assoc], ?_⟩
    intro z hz
    rcases List.mem_append.1 hz with hz | hz
    · exact a1 z hz
    · exact a2 z hz

/-- Requests that give nothing to anybody. -/
theorem gets_silent (i : Nat) (l zs : List (Req M)) (hz : ∀ z ∈ zs, z.gives = []) : gets i (l ++ zs) = gets i l := by
  have zero : ∀ (zs : List (Req M)) pre, (∀ z ∈ zs, z.gives = []) → getsFrom i pre (served zs) = [] := by
    intro zs
    induction zs with
    | nil => intro pre _; rfl
    | cons r zs ih =>
      intro pre h
      have hr := h r List.mem_cons_self
      unfold served
      split
      · simp [getsFrom, hr]
      · simp only [getsFrom, hr, ite_self, List.nil_append]
        exact ih _ (fun z hz => h z (List.mem_cons_of_mem _ hz))
  have main : ∀ (l : List (Req M)) pre, getsFrom i pre (served (l ++ zs)) = getsFrom i pre (served l) := by
    intro l
    induction l with
    | nil => intro pre; exact zero zs pre hz
    | cons r l ih =>
      intro pre
      simp only [List.cons_append, served]
      split
      · rfl
      · simp only [getsFrom]
        rw [ih]
  exact main l []

/-- C93: a destructor of the worker that begins while no other thread is inside the worker's queue always finishes. However the threads run after that without new input,
they come to rest; then, unless a fatal event has ended the process or holds up the thread of a sink, the destructor and all calls have returned, nothing is left in
any queue, and every sink has got exactly what was handed over before the destructor began; nothing was raced for and nothing used after its end.
If no fatal event was handed over, the two exceptions do not happen. -/
theorem C93_destroys {ls : List (KLabel M)} {t : Nat} {k1 : KState M} (hn : 2 ≤ n) (h : kRun (KState.start n) ls = some k) (hd : k.dthr = none)
    (ho : ∀ (v : Nat) pc, 2 ≤ v → k.wq.pcs[v]? = some pc → pc = .idle) (hs : kStep k (.thr t .dtor) = some k1) :
    (∃ ms k', KRun k1 ms k' ∧ kStuck k') ∧
    ∀ ms k', KRun k1 ms k' →
      k'.race = false ∧ k'.uaf = false ∧ k'.ctl.ub = false ∧
      (kStuck k' →
        (k'.ctl.wpc = .dead ∨ (∃ i, (k'.ctl.sk i).blocked = true) ∨
         (k'.ctl.phase = .returned ∧ (∀ c ∈ k'.ctl.calls, c.returned = true) ∧ k'.wq.q = [] ∧ k'.hand = none ∧
          (∀ i, i < k'.ctl.n → (k'.sq i).q = [] ∧ (k'.ctl.sk i).running = none) ∧ ∀ i, received (k'.ctl.sk i) = gets i (k.ctl.sub.map req))) ∧
        ((∀ m, WTask.fatal m ∉ k.ctl.sub) → k'.ctl.wpc ≠ .dead ∧ ∀ i, (k'.ctl.sk i).blocked = false)) := by
  obtain ⟨hu, _, hr, _⟩ := kStep_sane hs
  have hrun1 : kRun (KState.start n) (ls ++ [.thr t .dtor]) = some k1 := kRun_join h (by simp [kRun, hs])
  refine ⟨C93_rests hrun1, fun ms k' hm => ?_⟩
  have G := going_run h hr
  have hph : k.ctl.phase = .notStarted := G.inv.dthr hd
  have shape : k1.dthr = some t ∧ k1.ctl = k.ctl ∧ k1.race = k.race ∧ ∃ q, qStep k.wq (.call t (.push .dtorClear)) = some q ∧ k1.wq = q := by
    have hs' := hs
    unfold kStep at hs'
    split at hs'
    · cases hs'
    · rcases dtor_shape hs' with ⟨_, _, q, hq, rfl⟩ | ⟨e, _⟩
      · exact ⟨rfl, rfl, rfl, q, hq, rfl⟩
      · rw [hd] at e; cases e
  obtain ⟨s1, s2, s3, q, hq, s4⟩ := shape
  have S1 : Shut n t k1 := by
    refine ⟨(going_step G hs (s3.trans hr)).1, ⟨?_, ?_⟩, ?_, s3.trans hr, by rw [s2]; exact hu, s1⟩
    · intro e; rw [s2, hph] at e; cases e
    · intro e; rw [s2, hph] at e; cases e
    · intro v pc hv hdv hp
      rw [s4, (call_pcs hq).2] at hp
      rcases get_set hp with ⟨e, _⟩ | ⟨_, e⟩
      · rw [s1, e] at hdv; exact absurd rfl hdv
      · exact ho v pc hv e
  obtain ⟨S, zs, hsub, hz⟩ := shut_run hm S1
  rw [s2] at hsub
  have hrun : kRun (KState.start n) ((ls ++ [.thr t .dtor]) ++ ms) = some k' := kRun_join hrun1 (krun_run hm)
  refine ⟨S.race, S.go.inv.uaf, S.ub, fun hst => ⟨?_, fun hf => ?_⟩⟩
  · by_cases hdead : k'.ctl.wpc = .dead
    · exact Or.inl hdead
    · by_cases hb : ∃ i, (k'.ctl.sk i).blocked = true
      · exact Or.inr (Or.inl hb)
      · right; right
        obtain ⟨a, b, c, d, _, _, e, f⟩ := C93_drains hn hrun S.race S.ub hdead (fun i => by
          cases hx : (k'.ctl.sk i).blocked with
          | false => rfl
          | true => exact absurd ⟨i, hx⟩ hb) hst
        refine ⟨?_, e, b, c, d, fun i => ?_⟩
        · rcases f with ⟨f, _⟩ | f
          · rw [S.thr] at f; cases f
          · exact f
        · rw [a i, hsub, List.map_append]
          refine gets_silent i _ _ ?_
          intro z hz'
          obtain ⟨w, hw, rfl⟩ := List.mem_map.1 hz'
          rcases hz w hw with rfl | rfl <;> rfl
  · have hf' : ∀ m, WTask.fatal m ∉ k'.ctl.sub := by
      intro m hm'
      rw [hsub] at hm'
      rcases List.mem_append.1 hm' with e | e
      · exact hf m e
      · rcases hz _ e with e | e <;> cases e
    refine ⟨fun e => ?_, fun i => ?_⟩
    · have := S.go.all.w.book.task
      rw [show (abs k').wpc = .dead from e] at this
      obtain ⟨m, hm'⟩ := this
      exact hf' m (List.mem_of_getElem? hm')
    · cases hx : (k'.ctl.sk i).blocked with
      | false => rfl
      | true =>
        obtain ⟨ws, hw⟩ := (sim_run hrun S.race).2
        obtain ⟨m, hm'⟩ := blocked_run (by intro i e; cases e) hw i hx
        exact absurd hm' (hf' m)

/-- `C93_destroys`: after `twoThreads` thread 3 destroys the worker. -/
example : ∃ k k1, kRun (KState.start 4) twoThreads = some k ∧ k.dthr = none ∧ (∀ (v : Nat) pc, 2 ≤ v → k.wq.pcs[v]? = some pc → pc = .idle) ∧
    kStep k (.thr 3 .dtor) = some k1 ∧ (∀ m, WTask.fatal m ∉ k.ctl.sub) ∧ gets 0 (k.ctl.sub.map req) = [.log 2, .log 1] := by
  have key : ∀ k : KState Nat, k.wq.pcs = [.waiting, .idle, .idle, .idle] → ∀ (v : Nat) pc, 2 ≤ v → k.wq.pcs[v]? = some pc → pc = .idle := by
    intro k e v pc hv hp
    rw [e] at hp
    match v, hv with
    | 2, _ => cases hp; rfl
    | 3, _ => cases hp; rfl
    | v + 4, _ => cases hp
  have sub : ∀ k : KState Nat, k.ctl.sub = [.add 0, .save 2, .save 1] → ∀ m, WTask.fatal m ∉ k.ctl.sub := by
    intro k e m hm
    rw [e] at hm
    simp at hm
  exact ⟨_, _, rfl, rfl, key _ rfl, rfl, sub _ rfl, rfl⟩

end G3.Props
