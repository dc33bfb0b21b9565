import Verif.Props.SinkUse
/-
C94: that a point where nothing more can happen is reached, and which programs are safe.
-/
namespace G3.Props
open G3 G3.Spec

variable {M : Type}

/-- A run all of whose steps satisfy a condition. -/
inductive URunIf (P : UState M → ULabel M → Prop) : UState M → List (ULabel M) → UState M → Prop
  | nil (u) : URunIf P u [] u
  | cons {u v u' : UState M} {l : ULabel M} {ls} : P u l → uStep u l = some v → URunIf P v ls u' → URunIf P u (l :: ls) u'

theorem uRunIf_run {P : UState M → ULabel M → Prop} {ls : List (ULabel M)} {u u' : UState M} (h : URunIf P u ls u') : uRun u ls = some u' := by
  induction h with
  | nil => rfl
  | cons _ hs _ ih => rw [uRun, hs]; exact ih

theorem uRun_append {l1 l2 : List (ULabel M)} : ∀ {u v u' : UState M}, uRun u l1 = some v → uRun v l2 = some u' → uRun u (l1 ++ l2) = some u' := by
  induction l1 with
  | nil => intro u v u' h1 h2; cases h1; exact h2
  | cons a l1 ih =>
    intro u v u' h1 h2
    rw [uRun] at h1
    obtain ⟨x, hx, hr⟩ := Option.bind_eq_some_iff.1 h1
    rw [List.cons_append, uRun, hx]
    exact ih hr h2

/-! ### Runs without new input are bounded -/

def uPcCost : UPc → Nat
  | .user => 0
  | _ => 1

/-- An upper bound on the number of steps possible without new input. -/
def uWork (u : UState M) : Nat := work u.w + sumTo (fun i => 2 * (u.held i).length + uPcCost (u.pc i)) u.w.n

theorem release_work {w w' : WState M} {j : Nat} (hi : AllInv w) (h : wStep w (.release j) = some w') : work w' ≤ work w := by
  obtain ⟨hj, _, ho⟩ := release_owned h
  have hal := alive_of_owned hi.w.sinks hj ho
  have hrp := reaping_false hi ho hj
  unfold wStep at h
  split at h
  · cases h
  · simp only at h
    split at h
    · simp only [Option.some.injEq] at h
      subst h
      unfold clientDrop
      split
      · have := sum_upd' (sk := w.sk) (n := w.n) (i := j) (f := fun k => { k with refs := k.refs - 1 }) hj
        have e : sinkCost { w.sk j with refs := (w.sk j).refs - 1 } = sinkCost (w.sk j) := rfl
        simp only [work]
        rw [e] at this
        omega
      · have h1 := sum_upd (sk := w.sk) (n := w.n) (i := j) (f := fun k => { k with refs := k.refs - 1 }) hj 0 (Nat.le_refl _)
        have h2 := sum_upd (sk := updSink w.sk j fun k => { k with refs := k.refs - 1 }) (n := w.n) (i := j) (f := fun k => { k.stop with reaping := true }) hj 0
          (by simp only [updSink_self]; simp [sinkCost, SinkSt.stop, hal, hrp]; omega)
        simp only [work]
        exact Nat.add_le_add_right (Nat.add_le_add_right (Nat.add_le_add_left (Nat.le_trans h2 h1) _) _) _
    · cases h

theorem sum_at {f g : Nat → Nat} {i n : Nat} (hi : i < n) (h : ∀ j, j ≠ i → g j = f j) : sumTo g n + f i = sumTo f n + g i := sumTo_change n hi h

/-- Every step without new input uses up some of the bound. -/
theorem uWork_decreases {u u' : UState M} {l : ULabel M} (hi : UInv u) (hl : uInternal u l) (hs : uStep u l = some u') : uWork u' < uWork u := by
  obtain ⟨ho, ht⟩ := uTr_of_step hs
  have pcs : ∀ i (p : UPc), i < u.w.n → uPcCost p ≤ 1 →
      sumTo (fun k => 2 * (u.held k).length + uPcCost (putAt u.pc i p k)) u.w.n + uPcCost (u.pc i) =
        sumTo (fun k => 2 * (u.held k).length + uPcCost (u.pc k)) u.w.n + uPcCost p := by
    intro i p hlt _
    have := sum_at (f := fun k => 2 * (u.held k).length + uPcCost (u.pc k)) (g := fun k => 2 * (u.held k).length + uPcCost (putAt u.pc i p k)) hlt
      (fun k hk => by simp only [putAt_ne _ _ hk])
    simp only [putAt_self] at this
    omega
  have both : ∀ i j (p : UPc), i < u.w.n → j ∈ u.held i → u.pc i = .user → uPcCost p ≤ 1 →
      sumTo (fun k => 2 * (putAt u.held i ((u.held i).erase j) k).length + uPcCost (putAt u.pc i p k)) u.w.n + 1 ≤
        sumTo (fun k => 2 * (u.held k).length + uPcCost (u.pc k)) u.w.n := by
    intro i j p hlt hj hp hc
    have := sum_at (f := fun k => 2 * (u.held k).length + uPcCost (u.pc k))
      (g := fun k => 2 * (putAt u.held i ((u.held i).erase j) k).length + uPcCost (putAt u.pc i p k)) hlt
      (fun k hk => by simp only [putAt_ne _ _ hk])
    simp only [putAt_self, hp] at this
    have h1 := List.length_erase_of_mem hj
    have h2 := List.length_pos_of_mem hj
    have h3 : uPcCost .user = 0 := rfl
    omega
  have ps : ∀ {k}, uPcCost (.sync k) = 1 := rfl
  have pe : ∀ {k}, uPcCost (.ending k) = 1 := rfl
  have pu : uPcCost .user = 0 := rfl
  cases ht with
  | base l w hb hw =>
    have h1 := work_decreases hi.body.all hl hw
    have h2 := hold_n hw (by rintro rfl; cases hl)
    show work w + sumTo (fun i => 2 * (u.held i).length + uPcCost (u.pc i)) w.n < _
    rw [h2]
    simp only [uWork]; omega
  | log => cases hl
  | hold => cases hl
  | holdFail => cases hl
  | call => cases hl
  | relKeep i j w hc hj hw hr =>
    have h1 := release_work hi.body.all hw
    have h2 := hold_n hw (by simp)
    have iu := inUser_of hc
    have h3 := both i j .user iu.lt hj iu.pc (by simp [uPcCost])
    show work w + sumTo (fun k => 2 * (putAt u.held i ((u.held i).erase j) k).length + uPcCost (putAt u.pc i .user k)) w.n < _
    rw [h2]
    simp only [uWork]; omega
  | relSelf i w hc hj hw hr =>
    have h1 := release_work hi.body.all hw
    have h2 := hold_n hw (by simp)
    have iu := inUser_of hc
    have h3 := both i i .user iu.lt hj iu.pc (by simp [uPcCost])
    have h4 : (fun k => 2 * (putAt u.held i ((u.held i).erase i) k).length + uPcCost (u.pc k)) =
        (fun k => 2 * (putAt u.held i ((u.held i).erase i) k).length + uPcCost (putAt u.pc i .user k)) := by
      funext k
      by_cases hk : k = i
      · subst hk; rw [putAt_self _ _ UPc.user, iu.pc]
      · rw [putAt_ne u.pc _ hk]
    show work w + sumTo (fun k => 2 * (putAt u.held i ((u.held i).erase i) k).length + uPcCost (u.pc k)) w.n < _
    rw [h2, h4]
    simp only [uWork]; omega
  | relEnd i j w hc hj hw hr hne =>
    have h1 := release_work hi.body.all hw
    have h2 := hold_n hw (by simp)
    have iu := inUser_of hc
    have h3 := both i j (.ending j) iu.lt hj iu.pc (by simp [uPcCost])
    show work w + sumTo (fun k => 2 * (putAt u.held i ((u.held i).erase j) k).length + uPcCost (putAt u.pc i (.ending j) k)) w.n < _
    rw [h2]
    simp only [uWork]; omega
  | reap i j w hp hw =>
    have h1 := work_decreases hi.body.all (l := .reap j) trivial hw
    have h2 := hold_n hw (by simp)
    have h3 := pcs i .user (hi.body.busy i (Or.inl (by rw [hp]; simp))).1 (by simp [uPcCost])
    rw [hp, pe, pu] at h3
    show work w + sumTo (fun k => 2 * (u.held k).length + uPcCost (putAt u.pc i .user k)) w.n < _
    rw [h2]
    simp only [uWork]; omega
  | get => cases hl
  | got i j p hp hlt =>
    have h3 := pcs i .user (hi.body.busy i (Or.inl (by rw [hp]; simp))).1 (by simp [uPcCost])
    have pg : uPcCost (.getting j p) = 1 := rfl
    rw [hp, pg, pu] at h3
    show work u.w + sumTo (fun k => 2 * (u.held k).length + uPcCost (putAt u.pc i .user k)) u.w.n < _
    simp only [uWork]; omega
  | syncUb i _ l' w hy => cases hy <;> cases hl
  | sync i _ l' w hy => cases hy <;> cases hl
  | retKeep i k w hp hw hj =>
    have h1 := work_decreases hi.body.all (l := .ret k) trivial hw
    have h2 := hold_n hw (by simp)
    have h3 := pcs i .user (hi.body.busy i (Or.inl (by rw [hp]; simp))).1 (by simp [uPcCost])
    rw [hp, ps, pu] at h3
    show work w + sumTo (fun k => 2 * (u.held k).length + uPcCost (putAt u.pc i .user k)) w.n < _
    rw [h2]
    simp only [uWork]; omega
  | retSelf i k w hp hw hj hr =>
    have h1 := work_decreases hi.body.all (l := .ret k) trivial hw
    have h2 := hold_n hw (by simp)
    show work w + sumTo (fun k => 2 * (u.held k).length + uPcCost (u.pc k)) w.n < _
    rw [h2]
    simp only [uWork]; omega
  | retEnd i k j w hp hw hj hr hne =>
    have h1 := work_decreases hi.body.all (l := .ret k) trivial hw
    have h2 := hold_n hw (by simp)
    have h3 := pcs i (.ending j) (hi.body.busy i (Or.inl (by rw [hp]; simp))).1 (by simp [uPcCost])
    rw [hp, ps, pe] at h3
    show work w + sumTo (fun k => 2 * (u.held k).length + uPcCost (putAt u.pc i (.ending j) k)) w.n < _
    rw [h2]
    simp only [uWork]; omega

/-- C94: whatever the callbacks of the sinks are doing, only a bounded number of steps is possible without new input, in whatever order. -/
theorem C94_bounded {ls l : List (ULabel M)} {u u' : UState M} (h : uRun UState.start ls = some u) (hr : URunIf uInternal u l u') :
    l.length + uWork u' ≤ uWork u := by
  have hi := uinv_run h
  clear h
  induction hr with
  | nil => simp
  | cons hp hs _ ih =>
    have h1 := uWork_decreases hi hp hs
    have h2 := ih (uinv_step hi hs)
    simp only [List.length_cons]; omega

/-- C94: so every such run can be continued to a point where nothing more can happen. -/
theorem C94_reached {ls : List (ULabel M)} {u : UState M} (h : uRun UState.start ls = some u) : ∃ l u', URunIf uInternal u l u' ∧ uStuck u' := by
  have hi := uinv_run h
  clear h
  generalize hw : uWork u = w
  induction w using Nat.strongRecOn generalizing u with
  | _ w ih =>
    by_cases hst : uStuck u
    · exact ⟨[], u, .nil u, hst⟩
    · simp only [uStuck, not_forall] at hst
      obtain ⟨l, hl, hn⟩ := hst
      cases hs : uStep u l with
      | none => exact absurd hs hn
      | some v =>
        have hlt := uWork_decreases hi hl hs
        obtain ⟨m, u', h1, h2⟩ := ih (uWork v) (by omega) (uinv_step hi hs) rfl
        exact ⟨l :: m, u', .cons hl hs h1, h2⟩

/-! ### Programs whose threads wait in one direction only -/

/-- What a step may make a thread wait for is of higher rank: a callback takes hold only of sinks of higher rank than its own and waits only for
results of calls to such sinks; it adds and removes sinks only if the worker is of higher rank, and adds only sinks of higher rank. (Nor does it
raise a fatal event, see C62.) -/
def Upward (rank : Th → Nat) (u : UState M) : ULabel M → Prop
  | .hold i j => rank (.sink i) < rank (.sink j)
  | .get i j _ => rank (.sink i) < rank (.sink j)
  | .add i => rank (.sink i) < rank .worker ∧ rank (.sink i) < rank (.sink u.w.n)
  | .remove i _ => rank (.sink i) < rank .worker
  | .clear i => rank (.sink i) < rank .worker
  | .base (.sinkFatal _ _) => False
  | _ => True

/-- All references and all waits of callbacks go upward. -/
structure Ord (rank : Th → Nat) (u : UState M) : Prop where
  alive : u.terminated = false
  held : ∀ i j, j ∈ u.held i → rank (.sink i) < rank (.sink j)
  ends : ∀ i j, u.pc i = .ending j → rank (.sink i) < rank (.sink j)
  gets : ∀ i j p, u.pc i = .getting j p → rank (.sink i) < rank (.sink j)
  syncs : ∀ i k, u.pc i = .sync k → rank (.sink i) < rank .worker ∧ ∀ j, addedBy u.w k = some j → rank (.sink i) < rank (.sink j)
  awake : ∀ i, (u.w.sk i).blocked = false

theorem ord_start (rank : Th → Nat) : Ord rank (UState.start : UState M) :=
  ⟨rfl, fun _ _ h => (by cases h), fun _ _ h => (by cases h), fun _ _ _ h => (by cases h), fun _ _ h => (by cases h), fun _ => rfl⟩

/-- What a call was made for does not change. -/
theorem addedBy_step {w w' : WState M} {l : WLabel M} (h : wStep w l = some w') {k : Nat} (hk : k < w.calls.length) : addedBy w' k = addedBy w k := by
  obtain ⟨cl, _⟩ := clTr_step h
  unfold addedBy
  generalize w'.calls = cs' at cl
  cases cl with
  | same => rfl
  | more _ _ => rw [List.getElem?_append_left hk]
  | set k' c e hc _ =>
    by_cases hkk : k' = k
    · subst hkk
      rw [List.getElem?_set_self hk, hc]
      obtain ⟨kd, p, r⟩ := c
      cases kd <;> rfl
    · rw [List.getElem?_set_ne hkk]

theorem ord_step {rank : Th → Nat} {u u' : UState M} {l : ULabel M} (hi : UInv u) (h : Ord rank u) (hu : Upward rank u l) (hs : uStep u l = some u') :
    Ord rank u' := by
  obtain ⟨ho, ht⟩ := uTr_of_step hs
  -- the state of the worker changes
  have aw : ∀ (w : WState M) (l' : WLabel M), wStep u.w l' = some w → (∀ i m, l' ≠ .sinkFatal i m) → ∀ i, (w.sk i).blocked = false := by
    intro w l' hw hne i
    exact (skTr_blocked (skTr_step hi.body.all hw i) (hne i)).trans (h.awake i)
  have sy : ∀ (w : WState M) (l' : WLabel M), wStep u.w l' = some w → ∀ i k, u.pc i = .sync k →
      rank (.sink i) < rank .worker ∧ ∀ j, addedBy w k = some j → rank (.sink i) < rank (.sink j) := by
    intro w l' hw i k hp
    have hk := hi.body.callerLt i k (hi.body.syncs i k hp).1
    refine ⟨(h.syncs i k hp).1, fun j e => (h.syncs i k hp).2 j ?_⟩
    rw [← e, addedBy_step hw hk]
  -- thread i goes to `p`
  have go : ∀ (w : WState M) (i : Nat) (p : UPc) (hd : Nat → List Nat) (mine : Nat → Nat) (rp cl : Nat → Option Nat),
      (∀ k m, u.pc k = .sync m → k ≠ i → rank (.sink k) < rank .worker ∧ ∀ j, addedBy w m = some j → rank (.sink k) < rank (.sink j)) →
      (∀ i, (w.sk i).blocked = false) →
      (∀ k j, j ∈ hd k → rank (.sink k) < rank (.sink j)) →
      (∀ j, p = .ending j → rank (.sink i) < rank (.sink j)) → (∀ j q, p = .getting j q → rank (.sink i) < rank (.sink j)) →
      (∀ k, p = .sync k → rank (.sink i) < rank .worker ∧ ∀ j, addedBy w k = some j → rank (.sink i) < rank (.sink j)) →
      Ord rank { u with w := w, pc := putAt u.pc i p, held := hd, mine := mine, reaper := rp, caller := cl } := by
    intro w i p hd mine rp cl h1 h2 h3 h4 h5 h6
    refine ⟨h.alive, h3, ?_, ?_, ?_, h2⟩
    · intro k j hp
      by_cases hk : k = i
      · subst hk; simp only [putAt_self] at hp; exact h4 j hp
      · simp only [putAt_ne _ _ hk] at hp; exact h.ends k j hp
    · intro k j q hp
      by_cases hk : k = i
      · subst hk; simp only [putAt_self] at hp; exact h5 j q hp
      · simp only [putAt_ne _ _ hk] at hp; exact h.gets k j q hp
    · intro k m hp
      by_cases hk : k = i
      · subst hk; simp only [putAt_self] at hp; exact h6 m hp
      · simp only [putAt_ne _ _ hk] at hp; exact h1 k m hp hk
  have he : ∀ i j k m, m ∈ putAt u.held i ((u.held i).erase j) k → rank (.sink k) < rank (.sink m) := by
    intro i j k m hm
    by_cases hk : k = i
    · subst hk; rw [putAt_self] at hm; exact h.held _ _ (List.mem_of_mem_erase hm)
    · rw [putAt_ne _ _ hk] at hm; exact h.held _ _ hm
  cases ht with
  | base l w hb hw => exact ⟨h.alive, h.held, h.ends, h.gets, sy w l hw, aw w l hw (by rintro i m rfl; exact hu)⟩
  | log i m w hc hw => exact ⟨h.alive, h.held, h.ends, h.gets, sy w _ hw, aw w _ hw (by simp)⟩
  | hold i j w hc hw =>
    refine ⟨h.alive, ?_, h.ends, h.gets, sy w _ hw, aw w _ hw (by simp)⟩
    intro k m hm
    by_cases hk : k = i
    · subst hk
      simp only [putAt_self, List.mem_append, List.mem_singleton] at hm
      rcases hm with hm | rfl
      · exact h.held _ _ hm
      · exact hu
    · simp only [putAt_ne _ _ hk] at hm; exact h.held _ _ hm
  | holdFail i j c w hc hw => exact ⟨h.alive, h.held, h.ends, h.gets, sy w _ hw, aw w _ hw (by simp)⟩
  | call i j c w hc hj hw => exact ⟨h.alive, h.held, h.ends, h.gets, sy w _ hw, aw w _ hw (by simp)⟩
  | relKeep i j w hc hj hw hr =>
    exact go w i .user _ _ _ _ (fun k m hp _ => sy w _ hw k m hp) (aw w _ hw (by simp)) (he i j) (fun _ e => (by cases e)) (fun _ _ e => (by cases e)) (fun _ e => (by cases e))
  | relSelf i w hc hj hw hr => exact absurd (h.held i i hj) (Nat.lt_irrefl _)
  | relEnd i j w hc hj hw hr hne =>
    exact go w i (.ending j) _ _ _ _ (fun k m hp _ => sy w _ hw k m hp) (aw w _ hw (by simp)) (he i j)
      (fun m e => (by cases e; exact h.held _ _ hj)) (fun _ _ e => (by cases e)) (fun _ e => (by cases e))
  | reap i j w hp hw =>
    exact go w i .user _ _ _ _ (fun k m hp _ => sy w _ hw k m hp) (aw w _ hw (by simp)) h.held (fun _ e => (by cases e)) (fun _ _ e => (by cases e)) (fun _ e => (by cases e))
  | get i j p c hc hl hx =>
    exact go u.w i (.getting j p) _ _ _ _ (fun k m hp _ => h.syncs k m hp) h.awake h.held (fun _ e => (by cases e)) (fun m q e => (by cases e; exact hu))
      (fun _ e => (by cases e))
  | got i j p hp hl =>
    exact go u.w i .user _ _ _ _ (fun k m hp _ => h.syncs k m hp) h.awake h.held (fun _ e => (by cases e)) (fun m q e => (by cases e)) (fun _ e => (by cases e))
  | syncUb i _ l' w hl hc hw hub =>
    exact ⟨h.alive, h.held, h.ends, h.gets, sy w _ hw, aw w _ hw (by cases hl <;> simp)⟩
  | sync i _ l' w hl hc hw hub =>
    refine go w i (.sync u.w.calls.length) _ _ _ _ (fun k m hp _ => sy w _ hw k m hp) (aw w _ hw (by cases hl <;> simp)) h.held (fun _ e => (by cases e))
      (fun m q e => (by cases e)) ?_
    intro k e
    cases e
    obtain ⟨_, hb, _⟩ := clTr_step hw
    obtain ⟨d, _, hd, hcs⟩ := hb (by cases hl <;> simp [beginsKind]) hub
    have hk : w.calls[u.w.calls.length]? = some d := by rw [hcs]; simp
    cases hl with
    | add =>
      refine ⟨hu.1, fun j e => ?_⟩
      have := (addedBy_of hk).1 e
      rw [this] at hd
      simp only [beginsKind, Option.some.injEq, WKind.add.injEq] at hd
      rw [← hd]; exact hu.2
    | remove m =>
      refine ⟨hu, fun j e => ?_⟩
      have := (addedBy_of hk).1 e
      rw [this] at hd
      simp [beginsKind] at hd
    | clear =>
      refine ⟨hu, fun j e => ?_⟩
      have := (addedBy_of hk).1 e
      rw [this] at hd
      simp [beginsKind] at hd
  | retKeep i k w hp hw hj =>
    exact go w i .user _ _ _ _ (fun k m hp _ => sy w _ hw k m hp) (aw w _ hw (by simp)) h.held (fun _ e => (by cases e)) (fun _ _ e => (by cases e)) (fun _ e => (by cases e))
  | retSelf i k w hp hw hj hr => exact absurd hj (hi.body.syncs i k hp).2.1
  | retEnd i k j w hp hw hj hr hne =>
    exact go w i (.ending j) _ _ _ _ (fun k m hp _ => sy w _ hw k m hp) (aw w _ hw (by simp)) h.held
      (fun m e => (by cases e; exact (h.syncs i k hp).2 j hj)) (fun _ _ e => (by cases e)) (fun _ e => (by cases e))

theorem ord_run {rank : Th → Nat} {ls : List (ULabel M)} {u u' : UState M} (hi : UInv u) (h : Ord rank u) (hr : URunIf (Upward rank) u ls u') : Ord rank u' := by
  induction hr with
  | nil => exact h
  | cons hp hs _ ih => exact ih (uinv_step hi hs) (ord_step hi h hp hs)

/-- C94: a program whose sinks use the library is safe if its threads can be ordered so that they wait in one direction only. Then the process is not
terminated, and no threads ever wait for each other. (The last condition is about the requests that make the worker wait: it removes only sinks of
higher rank than its own. So callbacks may add and remove sinks, provided that no sink below the worker is ever removed.) -/
theorem C94_ordered_partial {rank : Th → Nat} {ls : List (ULabel M)} {u : UState M} (h : URunIf (Upward rank) UState.start ls u)
    (hw : ∀ j, rank (.sink j) ≤ rank .worker → ∀ r ∈ handed 0 0 (ls.filterMap proj), ¬ r.mayWaitFor (· = j)) :
    u.terminated = false ∧ ∀ C, ¬ Deadlock (Waits u) C := by
  have hi := uinv_run (uRunIf_run h)
  have ho := ord_run uinv_start (ord_start rank) h
  refine ⟨ho.alive, ?_⟩
  rintro C ⟨⟨t0, h0⟩, hC⟩
  have up : ∀ t t', Waits u t t' → rank t < rank t' := by
    intro t t' hwt
    cases hwt with
    | ending i j hp _ => exact ho.ends i j hp
    | getting i j p hp _ => exact ho.gets i j p hp
    | sync i k c hp _ _ => exact (ho.syncs i k hp).1
    | worker i hwi _ =>
      by_contra hn
      obtain ⟨r, hr, hm⟩ := waits_request (K := (· = i)) (proj_run (uRunIf_run h)) rfl hwi
      exact hw i (by omega) r hr hm
  have bound : ∀ t, C t → rank t ≤ rank .worker + sumTo (fun i => rank (.sink i)) u.w.n := by
    intro t ht
    cases t with
    | worker => omega
    | sink i =>
      obtain ⟨t', _, hwt⟩ := hC _ ht
      have hlt := (hi.body.busy i (Or.inl (waits_pc hwt))).1
      have := le_sumTo (f := fun i => rank (.sink i)) hlt
      omega
  have none : ∀ d t, C t → rank .worker + sumTo (fun i => rank (.sink i)) u.w.n - rank t < d → False := by
    intro d
    induction d with
    | zero => intro t _ hlt; omega
    | succ d ih =>
      intro t ht hlt
      obtain ⟨t', ht', hwt⟩ := hC t ht
      have h1 := up t t' hwt
      have h2 := bound t' ht'
      exact ih t' ht' (by omega)
  exact none _ t0 h0 (Nat.lt_succ_self _)

/-- C94: and every run of such a program, when it gets no more input, comes to rest after a bounded number of steps (`C94_bounded`), in whatever
order they are taken, and then every sink has received all it is to receive and all calls have returned. -/
theorem C94_delivers_partial {rank : Th → Nat} {ls l : List (ULabel M)} {u u' : UState M} (h : URunIf (Upward rank) UState.start ls u)
    (hr : URunIf uInternal u l u') (hst : uStuck u') (hub : u'.w.ub = false) (hd : u'.w.wpc ≠ .dead)
    (hw : ∀ j, rank (.sink j) ≤ rank .worker → ∀ r ∈ handed 0 0 ((ls ++ l).filterMap proj), ¬ r.mayWaitFor (· = j)) :
    UQuiet u' ∧ ∀ i, i < u'.w.n → received (u'.w.sk i) = gets i (handed 0 0 ((ls ++ l).filterMap proj)) := by
  have up : ∀ {v v' : UState M} {m : List (ULabel M)}, URunIf uInternal v m v' → URunIf (Upward rank) v m v' := by
    intro v v' m hm
    induction hm with
    | nil => exact .nil _
    | @cons a b c lab _ hp hs _ ih =>
      refine .cons ?_ hs ih
      revert hp
      clear hs
      cases lab with
      | base l => cases l <;> simp [uInternal, internal, Upward]
      | _ => simp [uInternal, Upward]
  have app : ∀ {P : UState M → ULabel M → Prop} {v v' v'' : UState M} {m m' : List (ULabel M)}, URunIf P v m v' → URunIf P v' m' v'' → URunIf P v (m ++ m') v'' := by
    intro P v v' v'' m m' h1 h2
    induction h1 with
    | nil => exact h2
    | cons hp hs _ ih => exact .cons hp hs (ih h2)
  have hall := app h (up hr)
  have hrun := uRunIf_run hall
  have hor := ord_run uinv_start (ord_start rank) hall
  obtain ⟨ht, hno⟩ := C94_ordered_partial hall hw
  have hov : over u' = false := by
    unfold over
    rw [ht, hub]
    cases hp : u'.w.wpc <;> first | rfl | exact absurd hp hd
  rcases C94_exact hrun hov hor.awake hst with hq | ⟨C, hC⟩
  · exact ⟨hq, fun i hin => C94_rest hrun hq i hin⟩
  · exact absurd hC (hno C)

/-! ### Termination of the process -/

/-- C94: exactly when the use of the library by a sink ends the process in `std::terminate`: when its callback gives up a `shared_ptr` to its own
sink and nobody else holds the sink any more, neither the worker nor another `shared_ptr` nor an `addSink` in progress. -/
theorem C94_terminates {ls : List (ULabel M)} {u u' : UState M} {l : ULabel M} (h : uRun UState.start ls = some u) (hs : uStep u l = some u') :
    u'.terminated = true ↔ ∃ i, l = .release i i ∧ (u.w.sk i).refs = 1 ∧ i ∉ u.w.att ∧ adding u.w.calls i = false ∧ u.w.wpc.holds i = false := by
  have hi := uinv_run h
  obtain ⟨ho, ht⟩ := uTr_of_step hs
  have hal : u.terminated = false := (over_false ho).1
  -- the last reference
  have last : ∀ i w, inCallback u i = true → i ∈ u.held i → wStep u.w (.release i) = some w →
      ((w.sk i).reaping = true ↔ ((u.w.sk i).refs = 1 ∧ i ∉ u.w.att ∧ adding u.w.calls i = false ∧ u.w.wpc.holds i = false)) := by
    intro i w hc hj hw
    obtain ⟨hin, href, how⟩ := release_owned hw
    have hrp := reaping_false hi.body.all how hin
    unfold wStep at hw
    split at hw
    · cases hw
    · simp only at hw
      rw [if_pos ⟨hin, href⟩] at hw
      simp only [Option.some.injEq] at hw
      subst hw
      unfold clientDrop
      split
      · next ho' =>
        simp only [updSink_self]
        rw [hrp]
        constructor
        · intro e; cases e
        · rintro ⟨a, b, c, d⟩
          exfalso
          rcases owned_iff.1 ho' with e | e | e | e
          · simp only [updSink_self] at e; omega
          · exact b e
          · rw [c] at e; cases e
          · rw [d] at e; cases e
      · next ho' =>
        simp only [updSink_self, true_iff]
        refine ⟨?_, ?_, ?_, ?_⟩
        · by_contra hne
          exact ho' (owned_iff.2 (Or.inl (by simp only [updSink_self]; omega)))
        · exact fun hm => ho' (owned_iff.2 (Or.inr (Or.inl hm)))
        · cases e : adding u.w.calls i with
          | false => rfl
          | true => exact (ho' (owned_iff.2 (Or.inr (Or.inr (Or.inl e))))).elim
        · cases e : u.w.wpc.holds i with
          | false => rfl
          | true => exact (ho' (owned_iff.2 (Or.inr (Or.inr (Or.inr e))))).elim
  have no : ∀ (l : ULabel M), (∀ i, l ≠ .release i i) → ¬ ∃ i, l = .release i i ∧ (u.w.sk i).refs = 1 ∧ i ∉ u.w.att ∧ adding u.w.calls i = false ∧ u.w.wpc.holds i = false :=
    fun l hne ⟨i, e, _⟩ => hne i e
  cases ht with
  | relKeep i j w hc hj hw hr =>
    refine iff_of_false (by simp only [hal]; simp) ?_
    rintro ⟨k, e, hk⟩
    cases e
    rw [(last i w hc hj hw).2 hk] at hr; cases hr
  | relSelf i w hc hj hw hr => exact iff_of_true rfl ⟨i, rfl, (last i w hc hj hw).1 hr⟩
  | relEnd i j w hc hj hw hr hne =>
    refine iff_of_false (by simp only [hal]; simp) ?_
    rintro ⟨k, e, hk⟩
    cases e
    exact hne rfl
  | retSelf i k w hp hw hj hr => exact absurd hj (hi.body.syncs i k hp).2.1
  | syncUb i _ l' w hl => refine iff_of_false (by simp only [hal]; simp) (no _ ?_); cases hl <;> simp
  | sync i _ l' w hl => refine iff_of_false (by simp only [hal]; simp) (no _ ?_); cases hl <;> simp
  | base l w hb hw => exact iff_of_false (by simp only [hal]; simp) (no _ (by simp))
  | log i m w hc hw => exact iff_of_false (by simp only [hal]; simp) (no _ (by simp))
  | hold i j w hc hw => exact iff_of_false (by simp only [hal]; simp) (no _ (by simp))
  | holdFail i j c w hc hw => exact iff_of_false (by simp only [hal]; simp) (no _ (by simp))
  | call i j c w hc hj hw => exact iff_of_false (by simp only [hal]; simp) (no _ (by simp))
  | reap i j w hp hw => exact iff_of_false (by simp only [hal]; simp) (no _ (by simp))
  | get i j p c hc hl hx => exact iff_of_false (by simp only [hal]; simp) (no _ (by simp))
  | got i j p hp hl => exact iff_of_false (by simp only [hal]; simp) (no _ (by simp))
  | retKeep i k w hp hw hj => exact iff_of_false (by simp only [hal]; simp) (no _ (by simp))
  | retEnd i k j w hp hw hj hr hne => exact iff_of_false (by simp only [hal]; simp) (no _ (by simp))

/-- C94: a program whose sinks do not call themselves through their handles is never ended that way. -/
theorem C94_no_terminate_partial {ls : List (ULabel M)} {u : UState M} (h : uRun UState.start ls = some u) (hn : ∀ i, .hold i i ∉ ls) :
    u.terminated = false := by
  have gen : ∀ {ls : List (ULabel M)} {v u : UState M}, UInv v → v.terminated = false → (∀ i, i ∉ v.held i) → (∀ i, .hold i i ∉ ls) →
      uRun v ls = some u → u.terminated = false := by
    intro ls
    induction ls with
    | nil => intro v u _ hv _ _ hr; cases hr; exact hv
    | cons l ls ih =>
      intro v u hi hv hh hn hr
      rw [uRun] at hr
      obtain ⟨x, hx, hr⟩ := Option.bind_eq_some_iff.1 hr
      obtain ⟨ho, ht⟩ := uTr_of_step hx
      have er : ∀ i j k, k ∉ putAt v.held i ((v.held i).erase j) k := by
        intro i j k hm
        by_cases hk : k = i
        · subst hk; rw [putAt_self] at hm; exact hh k (List.mem_of_mem_erase hm)
        · rw [putAt_ne _ _ hk] at hm; exact hh k hm
      have key : x.terminated = false ∧ ∀ i, i ∉ x.held i := by
        cases ht with
        | hold i j w hc hw =>
          refine ⟨hv, ?_⟩
          intro k hm
          by_cases hk : k = i
          · subst hk
            simp only [putAt_self, List.mem_append, List.mem_singleton] at hm
            rcases hm with hm | rfl
            · exact hh _ hm
            · exact hn k (by simp)
          · simp only [putAt_ne _ _ hk] at hm; exact hh _ hm
        | relSelf i w hc hj hw hr => exact absurd hj (hh i)
        | retSelf i k w hp hw hj hr => exact absurd hj (hi.body.syncs i k hp).2.1
        | relKeep i j w hc hj hw hr => exact ⟨hv, er i j⟩
        | relEnd i j w hc hj hw hr hne => exact ⟨hv, er i j⟩
        | _ => exact ⟨hv, hh⟩
      exact ih (uinv_step hi hx) key.1 key.2 (fun i hm => hn i (List.mem_cons_of_mem _ hm)) hr
  exact gen uinv_start rfl (fun i hm => by cases hm) hn h

end G3.Props
