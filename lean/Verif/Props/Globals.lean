import Verif.Proofs.Globals
/-
C90: which functions of the library may be called at the same time.
-/
namespace G3.Props
open G3 G3.Spec

/-! ## No other races than those of the table -/

theorem race_forbidden {p : Nat → List GItem} {ls : List Nat} {s : GState} {i j : Nat} {x : GVar} {a b : GApi} {at' : Bool} (hr : gRun (gStart p) ls = some s)
    (h : GRace at' s.tr i j x a b) : GForbidden x a b ∨ (a = .fatalWork ∧ b = .fatalWork) := by
  have weak : ∀ {i j}, GHB false s.tr i j → GHB at' s.tr i j := by
    intro i j h
    induction h with
    | edge h =>
      cases h with
      | po h a b c => exact .edge (.po h a b c)
      | mutex h a b c d => exact .edge (.mutex h a b c d)
      | once h a b c d => exact .edge (.once h a b c d)
      | fork h a b c => exact .edge (.fork h a b c)
      | join h a b c => exact .edge (.join h a b c)
      | atomic k h a b c d => cases k
    | trans _ _ h1 h2 => exact .trans h1 h2
  obtain ⟨pr, I⟩ := run_inv ⟨_, ginv_start p⟩ hr
  obtain ⟨e, e', w, w', he, he', ha, hb, hne, hx, hx', hw, h1, h2⟩ := h
  by_cases hff : a = .fatalWork ∧ b = .fatalWork
  · exact .inr hff
  left
  apply gMayRace_table
  obtain ⟨a', ha', hu⟩ := I.core.use i e he x w hx
  obtain ⟨b', hb', hv⟩ := I.core.use j e' he' x w' hx'
  rw [ha] at ha'; injection ha' with ha'; subst ha'
  rw [hb] at hb'; injection hb' with hb'; subst hb'
  have hi : i < s.tr.length := (List.getElem?_eq_some_iff.1 he).1
  have hj : j < s.tr.length := (List.getElem?_eq_some_iff.1 he').1
  have hij : i ≠ j := by rintro rfl; rw [he] at he'; injection he' with he'; exact hne (by rw [he'])
  have apart : ∀ q ∈ pr i, ∀ q' ∈ pr j, gApart q q' = false := by
    intro q hq q' hq'
    cases q with
    | mutex m =>
      cases q' with
      | mutex m' =>
        by_cases hm : m = m'
        · subst hm
          exfalso
          rcases Nat.lt_or_gt_of_ne hij with h | h
          · exact h1 (weak (I.core.mm i j h hj m hq hq'))
          · exact h2 (weak (I.core.mm j i h hi m hq' hq))
        · simp [gApart, hm]
      | once f => rfl
      | past f => rfl
    | once f =>
      cases q' with
      | mutex m => rfl
      | once f' =>
        by_cases hf : f = f'
        · subst hf
          exfalso
          have A := I.core.one i e f he hq
          have B := I.core.one j e' f he' hq'
          rcases A with A | A <;> rcases B with B | B <;> rw [A] at B <;> first | (injection B with B; exact hne B) | cases B
        · simp [gApart, hf]
      | past f' =>
        by_cases hf : f = f'
        · subst hf
          exact absurd (weak ((I.core.pst j hj f hq').2 i hi hq)) h1
        · simp [gApart, hf]
    | past f =>
      cases q' with
      | mutex m => rfl
      | once f' =>
        by_cases hf : f = f'
        · subst hf
          exact absurd (weak ((I.core.pst i hi f hq).2 j hj hq')) h2
        · simp [gApart, hf]
      | past f' => rfl
  simp only [gMayRace, Bool.and_eq_true, Bool.not_eq_true', List.any_eq_true, Bool.and_eq_false_iff, beq_eq_false_iff_ne, beq_iff_eq]
  refine ⟨?_, _, hu, _, hv, rfl, ?_⟩
  · by_cases h : a = .fatalWork
    · exact .inr fun h' => hff ⟨h, h'⟩
    · exact .inl h
  · simp only [gClash, beq_self_eq_true, Bool.true_and, Bool.and_eq_true, Bool.or_eq_true, Bool.not_eq_true', List.any_eq_false]
    refine ⟨hw, fun q hq => ?_⟩
    simp only [Bool.not_eq_true, List.any_eq_false]
    intro q' hq'
    simp [apart q hq q' hq']

/-- C90. Data races between calls of the library's functions are all listed: whatever the threads call, and however they are scheduled, two calls race on a global
variable only if the table forbids this pair of functions. The worker thread, which deals with fatal messages, is one of the threads. -/
theorem C90_sound (p : Nat → List GItem) (hw : OneWorker p) (ls : List Nat) (s : GState) (hr : gRun (gStart p) ls = some s) (at' : Bool) (i j : Nat) (x : GVar)
    (a b : GApi) (h : GRace at' s.tr i j x a b) : GForbidden x a b := by
  rcases race_forbidden hr h with h' | ⟨rfl, rfl⟩
  · exact h'
  · exfalso
    obtain ⟨pr, I⟩ := run_inv ⟨_, ginv_start p⟩ hr
    obtain ⟨e, e', w, w', he, he', ha, hb, hne, _⟩ := h
    exact hne (hw _ _ (I.eapi i e _ he ha) (I.eapi j e' _ he' hb))

/-! ## Every entry of the table is a race -/

theorem GHB_last {at' : Bool} {tr : List GEvent} {i j : Nat} {e : GEvent} {y : GVar × Bool} (he : tr[i]? = some e) (ha : GAccess e.op = some y)
    (hl : ∀ (k : Nat) (d : GEvent), tr[k]? = some d → d.thr = e.thr → (∀ u, d.op ≠ .join u) ∧ k ≤ i) (hj : ∀ (k : Nat) (d : GEvent), tr[k]? = some d → d.op ≠ .join e.thr) :
    ¬ GHB at' tr i j := by
  intro h
  induction h with
  | @edge i j h =>
    cases h with
    | @po e1 e2 h a b c =>
      rw [he] at a; injection a with a; subst a
      have := (hl _ _ b c.symm).2; omega
    | mutex h a b c d => rw [he] at a; injection a with a; subst a; rw [c] at ha; cases ha
    | once h a b c d => rw [he] at a; injection a with a; subst a; rw [c] at ha; cases ha
    | fork h a b c => rw [he] at a; injection a with a; subst a; rw [c] at ha; cases ha
    | join h a b c => rw [he] at a; injection a with a; subst a; exact hj _ _ b c
    | atomic k h a b c d => rw [he] at a; injection a with a; subst a; rw [c] at ha; cases ha
  | trans _ _ h1 _ => exact h1 he hl

/-- Up to `n` steps of a thread. -/
def upTo (s : GState) (t : Nat) : Nat → GState
  | 0 => s
  | n + 1 => match gStep s t with
    | none => s
    | some s' => upTo s' t n

theorem gRun_append (s : GState) (l l' : List Nat) : gRun s (l ++ l') = (gRun s l).bind (gRun · l') := by
  induction l generalizing s with
  | nil => rfl
  | cons t l ih =>
    simp only [List.cons_append, gRun]
    cases gStep s t with
    | none => rfl
    | some s' => exact ih s'

theorem upTo_run (s : GState) (t n : Nat) : ∃ l, gRun s l = some (upTo s t n) := by
  induction n generalizing s with
  | zero => exact ⟨[], rfl⟩
  | succ n ih =>
    simp only [upTo]
    cases h : gStep s t with
    | none => exact ⟨[], rfl⟩
    | some s' =>
      obtain ⟨l, hl⟩ := ih s'
      exact ⟨t :: l, by simp only [gRun, h]; exact hl⟩

/-- A program: thread 0, maybe after initialisation, starts a thread with a fatal event (or nothing to do), and two threads that call `a` and `b`. -/
def wProg (ini : Bool) (a b : GApi) : Nat → List GItem
  | 0 => (if ini then [.call .initialize] else []) ++ [.fork 1, .fork 2, .fork 3]
  | 1 => [.call a]
  | 2 => [.call b]
  | 3 => if ini then [.call .fatal] else []
  | _ => []

/-- `k` steps of thread 2, `n` of thread 1, `m` of thread 2. -/
def wState (ini : Bool) (a b : GApi) (k n m : Nat) : GState :=
  upTo (upTo (upTo (upTo (upTo (gStart (wProg ini a b)) 0 40) 3 40) 2 k) 1 n) 2 m

/-- The last event of thread 1 and the last event of all race. -/
def wCheck (x : GVar) (a b : GApi) (tr : List GEvent) : Bool :=
  tr.zipIdx.any fun d => d.1.thr == 1 && d.1.api == some a && (match tr.getLast? with
    | some e' => e'.thr == 2 && e'.api == some b && (match GAccess d.1.op, GAccess e'.op with
      | some (y, w), some (z, v) => x == y && x == z && (w || v)
      | _, _ => false)
    | none => false) && (tr.zipIdx.all fun f => (!(f.1.thr == 1) || f.2 ≤ d.2) && (match f.1.op with | .join _ => false | _ => true))

theorem wCheck_race {x : GVar} {a b : GApi} {tr : List GEvent} (h : wCheck x a b tr = true) : ∃ i j, GRace true tr i j x a b := by
  unfold wCheck at h
  simp only [List.any_eq_true, Bool.and_eq_true, beq_iff_eq, List.all_eq_true] at h
  obtain ⟨⟨e, i⟩, hm, ⟨⟨ht, ha⟩, h2⟩, h3⟩ := h
  have he : tr[i]? = some e := by
    have := List.mem_zipIdx_iff_getElem?.1 hm
    simpa using this
  cases hl : tr.getLast? with
  | none => rw [hl] at h2; cases h2
  | some e' =>
    rw [hl] at h2
    simp only [Bool.and_eq_true, beq_iff_eq] at h2
    obtain ⟨⟨ht', hb⟩, h2⟩ := h2
    have he' : tr[tr.length - 1]? = some e' := by rw [← List.getLast?_eq_getElem?]; exact hl
    simp only at ht ha h2 h3
    cases hA : GAccess e.op with
    | none => rw [hA] at h2; cases h2
    | some yw =>
      cases hB : GAccess e'.op with
      | none => rw [hA, hB] at h2; cases h2
      | some zv =>
        obtain ⟨y, w⟩ := yw
        obtain ⟨z, v⟩ := zv
        rw [hA, hB] at h2
        simp only [Bool.and_eq_true, beq_iff_eq, Bool.or_eq_true] at h2
        obtain ⟨⟨rfl, rfl⟩, hw⟩ := h2
        have h3' : ∀ (k : Nat) (d : GEvent), tr[k]? = some d → (d.thr = 1 → k ≤ i) ∧ ∀ u, d.op ≠ .join u := by
          intro k d hd
          have := h3 (d, k) (List.mem_zipIdx_iff_getElem?.2 (by simpa using hd))
          simp only [Bool.or_eq_true, Bool.not_eq_true', beq_eq_false_iff_ne, decide_eq_true_eq] at this
          refine ⟨fun h => this.1.resolve_left (fun h' => h' h), fun u hu => ?_⟩
          rw [hu] at this; cases this.2
        have hne : e.thr ≠ e'.thr := by rw [ht, ht']; decide
        have hij : i < tr.length - 1 := by
          have h1 : i < tr.length := (List.getElem?_eq_some_iff.1 he).1
          have : i ≠ tr.length - 1 := by
            intro h; rw [h, he'] at he; injection he with he; exact hne (by rw [he])
          omega
        refine ⟨i, tr.length - 1, e, e', w, v, he, he', ha, hb, hne, hA, hB, hw, ?_, ?_⟩
        · refine GHB_last he hA (fun k d hd htd => ⟨(h3' k d hd).2, (h3' k d hd).1 (htd.trans ht)⟩) (fun k d hd => (h3' k d hd).2 _)
        · intro h
          have := GHB_lt h
          omega

/-- How to get at the races. -/
def gWit (x : GVar) (a b : GApi) : Bool × Nat × Nat × Nat :=
  match x, a, b with
  | .logger, .log, .initialize => (false, 0, 2, 11)
  | .logger, .log, .shutDown => (false, 0, 2, 3)
  | .logger, .log, .destroy => (false, 0, 2, 4)
  | .logger, .log, .fatalWork => (true, 0, 2, 7)
  | .logger, .logf, .initialize => (false, 0, 3, 11)
  | .logger, .logf, .shutDown => (false, 0, 3, 3)
  | .logger, .logf, .destroy => (false, 0, 3, 4)
  | .logger, .logf, .fatalWork => (true, 0, 3, 7)
  | .logger, .fatal, .initialize => (false, 0, 11, 11)
  | .logger, .fatal, .shutDown => (false, 0, 11, 3)
  | .logger, .fatal, .destroy => (false, 0, 11, 4)
  | .logger, .fatal, .fatalWork => (true, 0, 10, 7)
  | .logger, .destroy, .fatalWork => (true, 0, 2, 7)
  | .logger, .destroy, .initialize => (false, 0, 2, 11)
  | .logger, .destroy, .shutDown => (false, 0, 2, 3)
  | .logger, .destroy, .destroy => (false, 0, 2, 4)
  | .first, .log, .initialize => (false, 0, 4, 9)
  | .first, .logf, .initialize => (false, 0, 5, 9)
  | .hook, .fatal, .fatal => (false, 0, 2, 4)
  | .hook, .fatal, .initialize => (false, 0, 2, 13)
  | .hook, .fatal, .setHook => (false, 0, 2, 3)
  | .handler, .fatal, .setHandler => (false, 0, 10, 2)
  | .signals, .fatal, .overrideSignals => (false, 0, 12, 5)
  | .signals, .fatalWork, .overrideSignals => (true, 0, 9, 5)
  | .signals, .initialize, .overrideSignals => (false, 0, 3, 5)
  | .saved, .fatal, .fatal => (false, 0, 13, 12)
  | .saved, .fatal, .fatalWork => (true, 7, 12, 3)
  | .saved, .fatal, .initialize => (false, 0, 13, 4)
  | .saved, .fatal, .overrideSignals => (false, 0, 13, 4)
  | .saved, .fatal, .restoreSignal => (false, 0, 13, 2)
  | .saved, .fatalWork, .overrideSignals => (true, 0, 10, 4)
  | .saved, .fatalWork, .restoreSignal => (true, 0, 10, 2)
  | .saved, .initialize, .overrideSignals => (false, 0, 4, 4)
  | .saved, .initialize, .restoreSignal => (false, 0, 4, 2)
  | .saved, .overrideSignals, .restoreSignal => (false, 0, 4, 2)
  | _, _, _ => (false, 0, 2, 2)

theorem gWit_ok : (gTable.all fun y => wCheck y.1 y.2.1 y.2.2
    (let w := gWit y.1 y.2.1 y.2.2; (wState w.1 y.2.1 y.2.2 w.2.1 w.2.2.1 w.2.2.2).tr)) = true := by decide +kernel

theorem GRace_symm {at' : Bool} {tr : List GEvent} {i j : Nat} {x : GVar} {a b : GApi} (h : GRace at' tr i j x a b) : GRace at' tr j i x b a := by
  obtain ⟨e, e', w, w', h1, h2, h3, h4, h5, h6, h7, h8, h9, h10⟩ := h
  exact ⟨e', e, w', w, h2, h1, h4, h3, h5.symm, h7, h6, h8.symm, h10, h9⟩

theorem wState_run (ini : Bool) (a b : GApi) (k n m : Nat) : ∃ ls, gRun (gStart (wProg ini a b)) ls = some (wState ini a b k n m) := by
  obtain ⟨l1, h1⟩ := upTo_run (gStart (wProg ini a b)) 0 40
  obtain ⟨l2, h2⟩ := upTo_run (upTo (gStart (wProg ini a b)) 0 40) 3 40
  obtain ⟨l3, h3⟩ := upTo_run (upTo (upTo (gStart (wProg ini a b)) 0 40) 3 40) 2 k
  obtain ⟨l4, h4⟩ := upTo_run (upTo (upTo (upTo (gStart (wProg ini a b)) 0 40) 3 40) 2 k) 1 n
  obtain ⟨l5, h5⟩ := upTo_run (upTo (upTo (upTo (upTo (gStart (wProg ini a b)) 0 40) 3 40) 2 k) 1 n) 2 m
  refine ⟨l1 ++ (l2 ++ (l3 ++ (l4 ++ l5))), ?_⟩
  rw [gRun_append, h1, Option.bind_some, gRun_append, h2, Option.bind_some, gRun_append, h3, Option.bind_some, gRun_append, h4, Option.bind_some, h5]
  rfl

theorem wProg_one (ini : Bool) (a b : GApi) (h : ¬ (a = .fatalWork ∧ b = .fatalWork)) : OneWorker (wProg ini a b) := by
  have H : ∀ t, .call .fatalWork ∈ wProg ini a b t → t = 1 ∧ a = .fatalWork ∨ t = 2 ∧ b = .fatalWork := by
    intro t ht
    match t with
    | 0 => cases ini <;> simp [wProg] at ht
    | 1 => simp [wProg] at ht; exact .inl ⟨rfl, ht.symm⟩
    | 2 => simp [wProg] at ht; exact .inr ⟨rfl, ht.symm⟩
    | 3 => cases ini <;> simp [wProg] at ht
    | n + 4 => simp [wProg] at ht
  intro t t' ht ht'
  rcases H t ht with ⟨h1, h2⟩ | ⟨h1, h2⟩ <;> rcases H t' ht' with ⟨h3, h4⟩ | ⟨h3, h4⟩
  · rw [h1, h3]
  · exact absurd ⟨h2, h4⟩ h
  · exact absurd ⟨h4, h2⟩ h
  · rw [h1, h3]

theorem table_race {x : GVar} {a b : GApi} (h : (x, a, b) ∈ gTable) :
    ∃ p ls s i j, OneWorker p ∧ gRun (gStart p) ls = some s ∧ GRace true s.tr i j x a b := by
  have := gWit_ok
  rw [List.all_eq_true] at this
  have := this _ h
  simp only at this
  obtain ⟨i, j, hr⟩ := wCheck_race this
  obtain ⟨ls, hls⟩ := wState_run (gWit x a b).1 a b (gWit x a b).2.1 (gWit x a b).2.2.1 (gWit x a b).2.2.2
  refine ⟨_, ls, _, i, j, wProg_one _ _ _ ?_, hls, hr⟩
  rintro ⟨rfl, rfl⟩
  revert h; cases x <;> decide

/-- C90. The table is exact: two functions are forbidden together because of a variable if and only if some program whose threads call them has a data race on it. -/
theorem C90_exact (at' : Bool) (x : GVar) (a b : GApi) :
    (∃ p ls s i j, OneWorker p ∧ gRun (gStart p) ls = some s ∧ GRace at' s.tr i j x a b) ↔ GForbidden x a b := by
  constructor
  · rintro ⟨p, ls, s, i, j, hw, hr, h⟩
    exact C90_sound p hw ls s hr at' i j x a b h
  · have weak : ∀ {tr : List GEvent} {i j}, GHB at' tr i j → GHB true tr i j := by
      intro tr i j h
      induction h with
      | edge h =>
        cases h with
        | po h a b c => exact .edge (.po h a b c)
        | mutex h a b c d => exact .edge (.mutex h a b c d)
        | once h a b c d => exact .edge (.once h a b c d)
        | fork h a b c => exact .edge (.fork h a b c)
        | join h a b c => exact .edge (.join h a b c)
        | atomic k h a b c d => exact .edge (.atomic rfl h a b c d)
      | trans _ _ h1 h2 => exact .trans h1 h2
    have weak' : ∀ {tr : List GEvent} {i j a b}, GRace true tr i j x a b → GRace at' tr i j x a b := by
      rintro tr i j a b ⟨e, e', w, w', h1, h2, h3, h4, h5, h6, h7, h8, h9, h10⟩
      exact ⟨e, e', w, w', h1, h2, h3, h4, h5, h6, h7, h8, fun h => h9 (weak h), fun h => h10 (weak h)⟩
    rintro (h | h)
    · obtain ⟨p, ls, s, i, j, h1, h2, h3⟩ := table_race h
      exact ⟨p, ls, s, i, j, h1, h2, weak' h3⟩
    · obtain ⟨p, ls, s, i, j, h1, h2, h3⟩ := table_race h
      exact ⟨p, ls, s, j, i, h1, h2, GRace_symm (weak' h3)⟩

/-! ## Programs that start threads after set-up and join them before tear-down -/

/-- The main thread makes some calls, starts the threads `ts`, joins them, and makes some more calls. Thread `t` calls `q t`. -/
def mainProg (setup : List GApi) (ts : List Nat) (teardown : List GApi) (q : Nat → List GApi) (t : Nat) : List GItem :=
  if t = 0 then setup.map .call ++ (ts.map .fork ++ (ts.map .join ++ teardown.map .call)) else (q t).map .call

/-- The main thread has joined `u`. -/
def GJoined (s : GState) (n u : Nat) : Prop :=
  s.prog u = [] ∧ s.cur u = none ∧ ∃ k < n, (∃ e, s.tr[k]? = some e ∧ e.thr = 0 ∧ e.op = .join u) ∧ ∀ (j : Nat) e, s.tr[j]? = some e → e.thr = u → j < k

/-- Where the main thread is. -/
inductive GPhase (ts : List Nat) (td : List GApi) (s : GState) : Prop
  | setup (r : List GApi) : s.prog 0 = r.map .call ++ (ts.map .fork ++ (ts.map .join ++ td.map .call)) → (∀ (i : Nat) e u, s.tr[i]? = some e → e.op ≠ .fork u) →
      GPhase ts td s
  | forking (r' r : List Nat) : ts = r' ++ r → s.prog 0 = r.map .fork ++ (ts.map .join ++ td.map .call) → s.cur 0 = none → GPhase ts td s
  | joining (r' r : List Nat) : ts = r' ++ r → s.prog 0 = r.map .join ++ td.map .call → s.cur 0 = none → (∀ u ∈ r', GJoined s s.tr.length u) → GPhase ts td s
  | teardown (r : List GApi) : s.prog 0 = r.map .call → (∀ u ∈ ts, GJoined s s.tr.length u) → GPhase ts td s

structure MInv (ts : List Nat) (td : List GApi) (s : GState) : Prop where
  phase : GPhase ts td s
  other : ∀ t ≠ 0, ∃ r : List GApi, s.prog t = r.map .call
  zero : 0 ∉ ts
  st : ∀ t ≠ 0, s.started t = true → ∃ (k : Nat) (e : GEvent), s.tr[k]? = some e ∧ e.thr = 0 ∧ e.op = .fork t
  ev : ∀ (j : Nat) e, s.tr[j]? = some e → e.thr ≠ 0 → ∃ (k : Nat) (e' : GEvent), k < j ∧ s.tr[k]? = some e' ∧ e'.thr = 0 ∧ e'.op = .fork e.thr
  fk : ∀ (j : Nat) e u, s.tr[j]? = some e → e.op = .fork u → e.thr = 0 ∧ u ∈ ts
  main : ∀ (i : Nat) e, s.tr[i]? = some e → e.thr = 0 → e.api ≠ none →
    (∀ (k : Nat) e' u, k < i → s.tr[k]? = some e' → e'.op ≠ .fork u) ∨ ∀ u ∈ ts, GJoined s i u

/-- What a step is. -/
inductive GStepKind (s s' : GState) (t : Nat) : Prop
  | call (a : GApi) (r : List GItem) : s.cur t = none → s.prog t = .call a :: r → s'.prog = gSet s.prog t r → s'.tr = s.tr → s'.started = s.started →
      s'.cur = gSet s.cur t (some (a, gCode a)) → GStepKind s s' t
  | ret (a : GApi) (c : GCode) : s.cur t = some (a, c) → s'.prog = s.prog → s'.tr = s.tr → s'.started = s.started → s'.cur = gSet s.cur t none → GStepKind s s' t
  | exec (a : GApi) (c c' : GCode) (o : GOp) : s.cur t = some (a, c) → s'.prog = s.prog → s'.tr = s.tr ++ [⟨t, some a, o⟩] → s'.started = s.started →
      s'.cur = gSet s.cur t (some (a, c')) → (∀ u, o ≠ .fork u) → GStepKind s s' t
  | fork (u : Nat) (r : List GItem) : s.cur t = none → s.prog t = .fork u :: r → s.started u = false → s'.prog = gSet s.prog t r →
      s'.tr = s.tr ++ [⟨t, none, .fork u⟩] → s'.started = gSet s.started u true → s'.cur = s.cur → GStepKind s s' t
  | join (u : Nat) (r : List GItem) : s.cur t = none → s.prog t = .join u :: r → s.prog u = [] → s.cur u = none → s'.prog = gSet s.prog t r →
      s'.tr = s.tr ++ [⟨t, none, .join u⟩] → s'.started = s.started → s'.cur = s.cur → GStepKind s s' t

theorem gStep_kind {s s' : GState} {t : Nat} (h : gStep s t = some s') : s.started t = true ∧ GStepKind s s' t := by
  unfold gStep at h
  by_cases hs : s.started t = false
  · rw [if_pos hs] at h; cases h
  rw [if_neg hs] at h
  refine ⟨by simpa using hs, ?_⟩
  cases hc : s.cur t with
  | some ac =>
    obtain ⟨a, c⟩ := ac
    rw [hc] at h
    simp only at h
    cases c with
    | ret => injection h with h; subst h; exact .ret a _ hc rfl rfl rfl rfl
    | stop => cases h
    | lock m n =>
      simp only [gExec] at h
      split at h
      · injection h with h; subst h; exact .exec a _ n _ hc rfl rfl rfl rfl (by simp)
      · cases h
    | unlock m n =>
      simp only [gExec] at h
      split at h
      · injection h with h; subst h; exact .exec a _ n _ hc rfl rfl rfl rfl (by simp)
      · cases h
    | once f b n =>
      simp only [gExec] at h
      split at h
      · injection h with h; subst h; exact .exec a _ b _ hc rfl rfl rfl rfl (by simp)
      · cases h
      · injection h with h; subst h; exact .exec a _ n _ hc rfl rfl rfl rfl (by simp)
    | leave f n =>
      simp only [gExec] at h
      split at h
      · injection h with h; subst h; exact .exec a _ n _ hc rfl rfl rfl rfl (by simp)
      · cases h
    | read x n => injection h with h; subst h; exact .exec a _ _ _ hc rfl rfl rfl rfl (by simp)
    | write x v n => injection h with h; subst h; exact .exec a _ n _ hc rfl rfl rfl rfl (by simp)
    | atomic n => injection h with h; subst h; exact .exec a _ n _ hc rfl rfl rfl rfl (by simp)
  | none =>
    rw [hc] at h
    cases hp : s.prog t with
    | nil => rw [hp] at h; cases h
    | cons i r =>
      rw [hp] at h
      cases i with
      | call a => injection h with h; subst h; exact .call a r hc hp rfl rfl rfl rfl
      | fork u =>
        simp only at h
        split at h
        · cases h
        · rename_i hu
          injection h with h; subst h
          exact .fork u r hc hp (by simpa using hu) rfl rfl rfl rfl
      | join u =>
        simp only at h
        split at h
        · rename_i hu
          injection h with h; subst h
          exact .join u r hc hp hu.2.1 hu.2.2 rfl rfl rfl rfl
        · cases h

/-- Threads that have been joined do nothing more. -/
theorem joined_step {s s' : GState} {t n u : Nat} (h : gStep s t = some s') (J : GJoined s n u) : GJoined s' n u := by
  obtain ⟨h1, h2, k, hk, ⟨e, he, he'⟩, h3⟩ := J
  have hk' : k < s.tr.length := (List.getElem?_eq_some_iff.1 he).1
  have hne : u ≠ t := by
    rintro rfl
    obtain ⟨_, K⟩ := gStep_kind h
    cases K with
    | call a r a1 a2 => rw [h1] at a2; cases a2
    | ret a c a1 => rw [h2] at a1; cases a1
    | exec a c c' o a1 => rw [h2] at a1; cases a1
    | fork v r a1 a2 => rw [h1] at a2; cases a2
    | join v r a1 a2 => rw [h1] at a2; cases a2
  have new : ∀ e1 : GEvent, e1.thr = t → s'.tr = s.tr ++ [e1] → (∃ e, s'.tr[k]? = some e ∧ e.thr = 0 ∧ e.op = .join u) ∧ ∀ (j : Nat) e, s'.tr[j]? = some e → e.thr = u → j < k := by
    intro e1 ht hs
    rw [hs]
    refine ⟨⟨e, g_get_old he, he'⟩, fun j e2 hj hu => ?_⟩
    rcases g_get_cases hj with ⟨h4, _⟩ | ⟨rfl, rfl⟩
    · exact h3 j e2 h4 hu
    · exact absurd (hu.symm.trans ht) hne
  obtain ⟨_, K⟩ := gStep_kind h
  cases K with
  | call a r a1 a2 a3 a4 a5 a6 => exact ⟨by simp [a3, gSet, hne, h1], by simp [a6, gSet, hne, h2], k, hk, by rw [a4]; exact ⟨⟨e, he, he'⟩, h3⟩⟩
  | ret a c a1 a2 a3 a4 a5 => exact ⟨by simp [a2, h1], by simp [a5, gSet, hne, h2], k, hk, by rw [a3]; exact ⟨⟨e, he, he'⟩, h3⟩⟩
  | exec a c c' o a1 a2 a3 a4 a5 a6 => exact ⟨by simp [a2, h1], by simp [a5, gSet, hne, h2], k, hk, new ⟨t, some a, o⟩ rfl a3⟩
  | fork v r a1 a2 a3 a4 a5 a6 a7 => exact ⟨by simp [a4, gSet, hne, h1], by simp [a7, h2], k, hk, new ⟨t, none, .fork v⟩ rfl a5⟩
  | join v r a1 a2 a3 a4 a5 a6 a7 a8 => exact ⟨by simp [a5, gSet, hne, h1], by simp [a8, h2], k, hk, new ⟨t, none, .join v⟩ rfl a6⟩

theorem GJoined_le {s : GState} {n m u : Nat} (h : GJoined s n u) (hm : n ≤ m) : GJoined s m u := by
  obtain ⟨h1, h2, k, hk, h3⟩ := h
  exact ⟨h1, h2, k, by omega, h3⟩

/-- The phase after a step of another thread. -/
theorem phase_other {ts : List Nat} {td : List GApi} {s s' : GState} {t : Nat} (h : gStep s t = some s') (ht : t ≠ 0) (I : MInv ts td s) : GPhase ts td s' := by
  obtain ⟨_, K⟩ := gStep_kind h
  obtain ⟨r0, hr0⟩ := I.other t ht
  have hp0 : s'.prog 0 = s.prog 0 := by
    cases K with
    | call a r a1 a2 a3 => simp [a3, gSet, Ne.symm ht]
    | ret a c a1 a2 => rw [a2]
    | exec a c c' o a1 a2 => rw [a2]
    | fork v r a1 a2 a3 a4 => simp [a4, gSet, Ne.symm ht]
    | join v r a1 a2 a3 a4 a5 => simp [a5, gSet, Ne.symm ht]
  have hc0 : s'.cur 0 = s.cur 0 := by
    cases K with
    | call a r a1 a2 a3 a4 a5 a6 => simp [a6, gSet, Ne.symm ht]
    | ret a c a1 a2 a3 a4 a5 => simp [a5, gSet, Ne.symm ht]
    | exec a c c' o a1 a2 a3 a4 a5 => simp [a5, gSet, Ne.symm ht]
    | fork v r a1 a2 a3 a4 a5 a6 a7 => rw [a7]
    | join v r a1 a2 a3 a4 a5 a6 a7 a8 => rw [a8]
  have hlen : s.tr.length ≤ s'.tr.length := by
    cases K with
    | call a r a1 a2 a3 a4 => simp [a4]
    | ret a c a1 a2 a3 => simp [a3]
    | exec a c c' o a1 a2 a3 => rw [a3]; simp
    | fork v r a1 a2 a3 a4 a5 => rw [a5]; simp
    | join v r a1 a2 a3 a4 a5 a6 => rw [a6]; simp
  cases I.phase with
  | setup r h1 h2 =>
    refine .setup r (hp0.trans h1) ?_
    intro i e u hi
    cases K with
    | call a r a1 a2 a3 a4 => rw [a4] at hi; exact h2 i e u hi
    | ret a c a1 a2 a3 => rw [a3] at hi; exact h2 i e u hi
    | exec a c c' o a1 a2 a3 a4 a5 a6 =>
      rw [a3] at hi
      rcases g_get_cases hi with ⟨h4, _⟩ | ⟨rfl, rfl⟩
      · exact h2 i e u h4
      · exact a6 u
    | fork v r a1 a2 => rw [hr0] at a2; cases r0 <;> simp at a2
    | join v r a1 a2 => rw [hr0] at a2; cases r0 <;> simp at a2
  | forking r' r h1 h2 h3 => exact .forking r' r h1 (hp0.trans h2) (hc0.trans h3)
  | joining r' r h1 h2 h3 h4 => exact .joining r' r h1 (hp0.trans h2) (hc0.trans h3) fun u hu => GJoined_le (joined_step h (h4 u hu)) hlen
  | teardown r h1 h2 => exact .teardown r (hp0.trans h1) fun u hu => GJoined_le (joined_step h (h2 u hu)) hlen

/-- A step of the main thread when it is tearing down. -/
theorem phase_teardown {ts : List Nat} {td : List GApi} {s s' : GState} {r : List GApi} (h : gStep s 0 = some s') (h1 : s.prog 0 = r.map .call)
    (h2 : ∀ u ∈ ts, GJoined s s.tr.length u) : GPhase ts td s' := by
  obtain ⟨_, K⟩ := gStep_kind h
  cases K with
  | call a r1 a1 a2 a3 a4 a5 a6 =>
    rw [h1] at a2
    cases r with
    | nil => cases a2
    | cons b r =>
      injection a2 with b1 b2
      exact .teardown r (by rw [a3]; simp [gSet, b2]) fun u hu => by rw [a4]; exact joined_step h (h2 u hu)
  | ret a c a1 a2 a3 a4 a5 => exact .teardown r (by rw [a2, h1]) fun u hu => by rw [a3]; exact joined_step h (h2 u hu)
  | exec a c c' o a1 a2 a3 a4 a5 a6 => exact .teardown r (by rw [a2, h1]) fun u hu => GJoined_le (joined_step h (h2 u hu)) (by rw [a3]; simp)
  | fork v r1 a1 a2 => rw [h1] at a2; cases r <;> simp at a2
  | join v r1 a1 a2 => rw [h1] at a2; cases r <;> simp at a2

theorem phase_joining {ts : List Nat} {td : List GApi} {s s' : GState} {r' r : List Nat} (h : gStep s 0 = some s') (h0 : 0 ∉ ts) (h1 : ts = r' ++ r)
    (h2 : s.prog 0 = r.map .join ++ td.map .call) (h3 : s.cur 0 = none) (h4 : ∀ u ∈ r', GJoined s s.tr.length u) : GPhase ts td s' := by
  cases r with
  | nil =>
    simp only [List.append_nil] at h1
    subst h1
    exact phase_teardown h h2 h4
  | cons v r =>
    obtain ⟨_, K⟩ := gStep_kind h
    cases K with
    | call a r1 a1 a2 => rw [h2] at a2; simp at a2
    | ret a c a1 => rw [h3] at a1; cases a1
    | exec a c c' o a1 => rw [h3] at a1; cases a1
    | fork w r1 a1 a2 => rw [h2] at a2; simp at a2
    | join w r1 a1 a2 a3 a4 a5 a6 a7 a8 =>
      rw [h2] at a2
      simp only [List.map_cons, List.cons_append, List.cons.injEq, GItem.join.injEq] at a2
      obtain ⟨rfl, a2⟩ := a2
      have hv : v ≠ 0 := by rintro rfl; exact h0 (by rw [h1]; simp)
      refine .joining (r' ++ [v]) r (by rw [h1]; simp) (by rw [a5]; simp [gSet, a2]) (by rw [a8, h3]) fun u hu => ?_
      rcases List.mem_append.1 hu with hu | hu
      · exact GJoined_le (joined_step h (h4 u hu)) (by rw [a6]; simp)
      · simp only [List.mem_singleton] at hu; subst hu
        refine ⟨by rw [a5]; simp [gSet, hv, a3], by rw [a8, a4], s.tr.length, by rw [a6]; simp, ⟨_, by rw [a6]; exact g_get_new, rfl, rfl⟩, ?_⟩
        intro j e hj hu
        rw [a6] at hj
        rcases g_get_cases hj with ⟨_, h5⟩ | ⟨rfl, rfl⟩
        · exact h5
        · exact absurd hu.symm hv

theorem phase_forking {ts : List Nat} {td : List GApi} {s s' : GState} {r' r : List Nat} (h : gStep s 0 = some s') (h0 : 0 ∉ ts) (h1 : ts = r' ++ r)
    (h2 : s.prog 0 = r.map .fork ++ (ts.map .join ++ td.map .call)) (h3 : s.cur 0 = none) : GPhase ts td s' := by
  cases r with
  | nil => exact phase_joining (r' := []) (r := ts) h h0 rfl (by simpa using h2) h3 (by simp)
  | cons v r =>
    obtain ⟨_, K⟩ := gStep_kind h
    cases K with
    | call a r1 a1 a2 => rw [h2] at a2; simp at a2
    | ret a c a1 => rw [h3] at a1; cases a1
    | exec a c c' o a1 => rw [h3] at a1; cases a1
    | fork w r1 a1 a2 a3 a4 a5 a6 a7 =>
      rw [h2] at a2
      simp only [List.map_cons, List.cons_append, List.cons.injEq, GItem.fork.injEq] at a2
      exact .forking (r' ++ [v]) r (by rw [h1]; simp) (by rw [a4]; simp [gSet, a2.2]) (by rw [a7, h3])
    | join w r1 a1 a2 => rw [h2] at a2; simp at a2

theorem phase_main {ts : List Nat} {td : List GApi} {s s' : GState} (h : gStep s 0 = some s') (I : MInv ts td s) : GPhase ts td s' := by
  cases I.phase with
  | teardown r h1 h2 => exact phase_teardown h h1 h2
  | joining r' r h1 h2 h3 h4 => exact phase_joining h I.zero h1 h2 h3 h4
  | forking r' r h1 h2 h3 => exact phase_forking h I.zero h1 h2 h3
  | setup r h1 h2 =>
    obtain ⟨_, K⟩ := gStep_kind h
    cases K with
    | call a r1 a1 a2 a3 a4 a5 a6 =>
      cases r with
      | nil => exact phase_forking (r' := []) (r := ts) h I.zero rfl (by simpa using h1) a1
      | cons b r =>
        rw [h1] at a2
        simp only [List.map_cons, List.cons_append, List.cons.injEq, GItem.call.injEq] at a2
        exact .setup r (by rw [a3]; simp [gSet, ← a2.2]) (by rw [a4]; exact h2)
    | ret a c a1 a2 a3 a4 a5 => exact .setup r (by rw [a2, h1]) (by rw [a3]; exact h2)
    | exec a c c' o a1 a2 a3 a4 a5 a6 =>
      refine .setup r (by rw [a2, h1]) fun i e u hi => ?_
      rw [a3] at hi
      rcases g_get_cases hi with ⟨h4, _⟩ | ⟨rfl, rfl⟩
      · exact h2 i e u h4
      · exact a6 u
    | fork w r1 a1 a2 =>
      cases r with
      | nil => exact phase_forking (r' := []) (r := ts) h I.zero rfl (by simpa using h1) a1
      | cons b r => rw [h1] at a2; simp at a2
    | join w r1 a1 a2 =>
      cases r with
      | nil => exact phase_forking (r' := []) (r := ts) h I.zero rfl (by simpa using h1) a1
      | cons b r => rw [h1] at a2; simp at a2

/-- In which phase the main thread starts threads and makes calls. -/
theorem phase_fork {ts : List Nat} {td : List GApi} {s : GState} {u : Nat} {r1 : List GItem} (P : GPhase ts td s) (hp : s.prog 0 = .fork u :: r1) : u ∈ ts := by
  cases P with
  | setup r h1 h2 =>
    cases r with
    | nil =>
      cases ts with
      | nil => rw [h1] at hp; cases td <;> simp at hp
      | cons v ts => rw [h1] at hp; simp at hp; rw [hp.1]; simp
    | cons b r => rw [h1] at hp; simp at hp
  | forking r' r h1 h2 h3 =>
    cases r with
    | nil => rw [h2] at hp; cases ts with
      | nil => cases td <;> simp at hp
      | cons v ts => simp at hp
    | cons v r => rw [h2] at hp; simp at hp; rw [h1, hp.1]; simp
  | joining r' r h1 h2 h3 h4 =>
    cases r with
    | nil => rw [h2] at hp; cases td <;> simp at hp
    | cons v r => rw [h2] at hp; simp at hp
  | teardown r h1 h2 => rw [h1] at hp; cases r <;> simp at hp

theorem minv_step {ts : List Nat} {td : List GApi} {s s' : GState} {t : Nat} (h : gStep s t = some s') (I : MInv ts td s) : MInv ts td s' := by
  obtain ⟨hst, K⟩ := gStep_kind h
  have notFork : t ≠ 0 → ∀ u r, s.prog t ≠ .fork u :: r ∧ s.prog t ≠ .join u :: r := by
    intro ht u r
    obtain ⟨r0, hr0⟩ := I.other t ht
    rw [hr0]; cases r0 <;> simp
  -- the events of the step
  have E : s'.tr = s.tr ∨ ∃ e, e.thr = t ∧ s'.tr = s.tr ++ [e] ∧ (∀ u, e.op = .fork u → t = 0 ∧ u ∈ ts) ∧ (e.api ≠ none → s.cur t ≠ none) := by
    cases K with
    | call a r a1 a2 a3 a4 => exact .inl a4
    | ret a c a1 a2 a3 => exact .inl a3
    | exec a c c' o a1 a2 a3 a4 a5 a6 => exact .inr ⟨⟨t, some a, o⟩, rfl, a3, fun u hu => absurd hu (a6 u), fun _ => by rw [a1]; simp⟩
    | fork u r a1 a2 a3 a4 a5 =>
      have ht : t = 0 := Classical.byContradiction fun ht => (notFork ht u r).1 a2
      subst ht
      refine .inr ⟨⟨0, none, .fork u⟩, rfl, a5, fun v hv => ⟨rfl, ?_⟩, fun h => absurd rfl h⟩
      injection hv with hv; subst hv
      exact phase_fork I.phase a2
    | join u r a1 a2 a3 a4 a5 a6 => exact .inr ⟨⟨t, none, .join u⟩, rfl, a6, (fun v hv => by cases hv), fun h => absurd rfl h⟩
  have old : ∀ {k : Nat} {e : GEvent}, s.tr[k]? = some e → s'.tr[k]? = some e := by
    intro k e hk
    rcases E with E | ⟨e1, _, E, _⟩
    · rw [E]; exact hk
    · rw [E]; exact g_get_old hk
  refine ⟨?_, ?_, I.zero, ?_, ?_, ?_, ?_⟩
  · by_cases ht : t = 0
    · subst ht; exact phase_main h I
    · exact phase_other h ht I
  · intro t' ht'
    obtain ⟨r0, hr0⟩ := I.other t' ht'
    by_cases e : t' = t
    · subst e
      cases K with
      | call a r a1 a2 a3 =>
        rw [hr0] at a2
        cases r0 with
        | nil => cases a2
        | cons b r0 => injection a2 with _ b2; exact ⟨r0, by rw [a3]; simp [gSet, b2]⟩
      | ret a c a1 a2 => exact ⟨r0, by rw [a2]; exact hr0⟩
      | exec a c c' o a1 a2 => exact ⟨r0, by rw [a2]; exact hr0⟩
      | fork u r a1 a2 => exact absurd a2 (notFork ht' u r).1
      | join u r a1 a2 => exact absurd a2 (notFork ht' u r).2
    · refine ⟨r0, ?_⟩
      cases K with
      | call a r a1 a2 a3 => rw [a3]; simp [gSet, e, hr0]
      | ret a c a1 a2 => rw [a2]; exact hr0
      | exec a c c' o a1 a2 => rw [a2]; exact hr0
      | fork u r a1 a2 a3 a4 => rw [a4]; simp [gSet, e, hr0]
      | join u r a1 a2 a3 a4 a5 => rw [a5]; simp [gSet, e, hr0]
  · intro t' ht' hs
    have keep : s.started t' = true → ∃ (k : Nat) (e : GEvent), s'.tr[k]? = some e ∧ e.thr = 0 ∧ e.op = .fork t' := by
      intro hs
      obtain ⟨k, e, h1, h2⟩ := I.st t' ht' hs
      exact ⟨k, e, old h1, h2⟩
    cases K with
    | call a r a1 a2 a3 a4 a5 => rw [a5] at hs; exact keep hs
    | ret a c a1 a2 a3 a4 => rw [a4] at hs; exact keep hs
    | exec a c c' o a1 a2 a3 a4 => rw [a4] at hs; exact keep hs
    | fork u r a1 a2 a3 a4 a5 a6 =>
      rw [a6] at hs
      simp only [gSet] at hs
      split at hs
      · rename_i e; subst e
        have ht : t = 0 := Classical.byContradiction fun ht => (notFork ht t' r).1 a2
        exact ⟨s.tr.length, _, by rw [a5]; exact g_get_new, ht, rfl⟩
      · exact keep hs
    | join u r a1 a2 a3 a4 a5 a6 a7 => rw [a7] at hs; exact keep hs
  · intro j e hj hne
    rcases E with E | ⟨e1, he1, E, _⟩
    · rw [E] at hj
      obtain ⟨k, e', h1, h2, h3⟩ := I.ev j e hj hne
      exact ⟨k, e', h1, old h2, h3⟩
    · rw [E] at hj
      rcases g_get_cases hj with ⟨h4, _⟩ | ⟨rfl, rfl⟩
      · obtain ⟨k, e', h1, h2, h3⟩ := I.ev j e h4 hne
        exact ⟨k, e', h1, old h2, h3⟩
      · obtain ⟨k, e', h1, h2, h3⟩ := I.st e.thr hne (by rw [he1]; exact hst)
        exact ⟨k, e', (List.getElem?_eq_some_iff.1 h1).1, old h1, h2, h3⟩
  · intro j e u hj hu
    rcases E with E | ⟨e1, he1, E, E1, _⟩
    · rw [E] at hj; exact I.fk j e u hj hu
    · rw [E] at hj
      rcases g_get_cases hj with ⟨h4, _⟩ | ⟨rfl, rfl⟩
      · exact I.fk j e u h4 hu
      · exact ⟨he1.trans (E1 u hu).1, (E1 u hu).2⟩
  · intro i e hi ht ha
    have keep : s.tr[i]? = some e → (∀ (k : Nat) e' u, k < i → s'.tr[k]? = some e' → e'.op ≠ .fork u) ∨ ∀ u ∈ ts, GJoined s' i u := by
      intro hi'
      rcases I.main i e hi' ht ha with h1 | h1
      · left
        intro k e' u hk he'
        have hl : i < s.tr.length := (List.getElem?_eq_some_iff.1 hi').1
        rcases E with E | ⟨e1, _, E, _⟩
        · rw [E] at he'; exact h1 k e' u hk he'
        · rw [E] at he'; exact h1 k e' u hk (g_get_lt he' (by omega))
      · exact .inr fun u hu => joined_step h (h1 u hu)
    rcases E with E | ⟨e1, he1, E, E1, E2⟩
    · rw [E] at hi; exact keep hi
    · rw [E] at hi
      rcases g_get_cases hi with ⟨h4, _⟩ | ⟨rfl, rfl⟩
      · exact keep h4
      · have hc : s.cur 0 ≠ none := by have := E2 ha; rwa [← he1, ht] at this
        cases I.phase with
        | setup r h1 h2 =>
          left
          intro k e' u hk he'
          rw [E] at he'
          exact h2 k e' u (g_get_lt he' hk)
        | forking r' r h1 h2 h3 => exact absurd h3 hc
        | joining r' r h1 h2 h3 h4 => exact absurd h3 hc
        | teardown r h1 h2 => exact .inr fun u hu => joined_step h (h2 u hu)

theorem minv_run {ts : List Nat} {td : List GApi} {s s' : GState} {ls : List Nat} (I : MInv ts td s) (h : gRun s ls = some s') : MInv ts td s' := by
  induction ls generalizing s with
  | nil => injection h with h; subst h; exact I
  | cons t ls ih =>
    simp only [gRun] at h
    cases hs : gStep s t with
    | none => rw [hs] at h; cases h
    | some s1 => rw [hs] at h; exact ih (minv_step hs I) h

theorem minv_start (setup : List GApi) (ts : List Nat) (td : List GApi) (q : Nat → List GApi) (h0 : 0 ∉ ts) : MInv ts td (gStart (mainProg setup ts td q)) := by
  refine ⟨.setup setup (by simp [gStart, mainProg]) (by simp [gStart]), ?_, h0, ?_, ?_, ?_, ?_⟩
  · intro t ht; exact ⟨q t, by simp [gStart, mainProg, ht]⟩
  · intro t ht hs; simp [gStart, ht] at hs
  · intro j e hj; simp [gStart] at hj
  · intro j e u hj; simp [gStart] at hj
  · intro j e hj; simp [gStart] at hj

/-- C90. A program that sets logging up before it starts its threads, and tears it down after it has joined them, has no data race, whatever is called for set-up and
tear-down, if no function that one of the threads calls is forbidden together with a function that another one calls. -/
theorem C90_documented_partial (setup : List GApi) (ts : List Nat) (teardown : List GApi) (q : Nat → List GApi) (h0 : 0 ∉ ts)
    (hq : ∀ t ∈ ts, ∀ t' ∈ ts, t ≠ t' → ∀ a ∈ q t, ∀ b ∈ q t', ∀ x, ¬ GForbidden x a b)
    (hw : ∀ t ∈ ts, ∀ t' ∈ ts, .fatalWork ∈ q t → .fatalWork ∈ q t' → t = t') (ls : List Nat) (s : GState)
    (hr : gRun (gStart (mainProg setup ts teardown q)) ls = some s) (at' : Bool) (i j : Nat) (x : GVar) (a b : GApi) : ¬ GRace at' s.tr i j x a b := by
  intro h
  have I := minv_run (minv_start setup ts teardown q h0) hr
  obtain ⟨pr, G⟩ := run_inv ⟨_, ginv_start _⟩ hr
  -- an event of the main thread and an event of another thread
  have key : ∀ (i j : Nat) (e e' : GEvent) y, s.tr[i]? = some e → s.tr[j]? = some e' → e.thr = 0 → e'.thr ≠ 0 → e.api ≠ none → GAccess e.op = some y →
      GHB at' s.tr i j ∨ GHB at' s.tr j i := by
    intro i j e e' y hi hj ht ht' ha hy
    obtain ⟨k, ek, h1, h2, h3, h4⟩ := I.ev j e' hj ht'
    rcases I.main i e hi ht ha with h5 | h5
    · left
      have hik : i < k := by
        rcases Nat.lt_trichotomy i k with h | h | h
        · exact h
        · subst h; rw [hi] at h2; injection h2 with h2; subst h2; rw [h4] at hy; cases hy
        · exact absurd h4 (h5 k ek _ h h2)
      exact .trans (.edge (.po hik hi h2 (ht.trans h3.symm))) (.edge (.fork h1 h2 hj h4))
    · right
      obtain ⟨_, _, l, hl, ⟨el, h6, h7, h8⟩, h9⟩ := h5 e'.thr (I.fk k ek _ h2 h4).2
      exact .trans (.edge (.join (h9 j e' hj rfl) hj h6 h8)) (.edge (.po hl h6 hi (h7.trans ht.symm)))
  have inQ : ∀ (i : Nat) (e : GEvent) a, s.tr[i]? = some e → e.api = some a → e.thr ≠ 0 → e.thr ∈ ts ∧ a ∈ q e.thr := by
    intro i e a hi ha ht
    obtain ⟨k, ek, h1, h2, h3, h4⟩ := I.ev i e hi ht
    refine ⟨(I.fk k ek _ h2 h4).2, ?_⟩
    have := G.eapi i e a hi ha
    simpa [mainProg, ht] using this
  have h' := h
  obtain ⟨e, e', w, w', he, he', ha, hb, hne, hx, hx', hww, h1, h2⟩ := h
  by_cases ht : e.thr = 0
  · have ht' : e'.thr ≠ 0 := fun h => hne (ht.trans h.symm)
    rcases key i j e e' _ he he' ht ht' (by rw [ha]; simp) hx with h | h
    · exact h1 h
    · exact h2 h
  · by_cases ht' : e'.thr = 0
    · rcases key j i e' e _ he' he ht' ht (by rw [hb]; simp) hx' with h | h
      · exact h2 h
      · exact h1 h
    · obtain ⟨m1, m2⟩ := inQ i e a he ha ht
      obtain ⟨n1, n2⟩ := inQ j e' b he' hb ht'
      rcases race_forbidden hr h' with h | ⟨rfl, rfl⟩
      · exact hq _ m1 _ n1 hne a m2 b n2 x h
      · exact hne (hw _ m1 _ n1 m2 n2)

/-- C90. In particular any number of threads may log, with and without printf formats, and set the fatal hook. -/
theorem C90_logging_partial (setup : List GApi) (ts : List Nat) (teardown : List GApi) (q : Nat → List GApi) (h0 : 0 ∉ ts)
    (hq : ∀ t ∈ ts, ∀ a ∈ q t, a = .log ∨ a = .logf ∨ a = .setHook) (ls : List Nat) (s : GState)
    (hr : gRun (gStart (mainProg setup ts teardown q)) ls = some s) (at' : Bool) (i j : Nat) (x : GVar) (a b : GApi) : ¬ GRace at' s.tr i j x a b := by
  refine C90_documented_partial setup ts teardown q h0 ?_ ?_ ls s hr at' i j x a b
  · intro t ht t' ht' _ a ha b hb x
    unfold GForbidden
    rcases hq t ht a ha with rfl | rfl | rfl <;> rcases hq t' ht' b hb with rfl | rfl | rfl <;> cases x <;> decide
  · intro t ht t' _ ha _
    rcases hq t ht _ ha with h | h | h <;> cases h

/-- C90, negation of the claim that whatever the library's functions do is thread safe: fatal events on two threads race, a fatal event races with setting the hook or the
exit handler, and a LOG statement races with what the worker does after a fatal event of another thread. -/
theorem C90_negation : (∃ p ls s i j x, OneWorker p ∧ gRun (gStart p) ls = some s ∧ GRace true s.tr i j x .fatal .fatal) ∧
    (∃ p ls s i j x, OneWorker p ∧ gRun (gStart p) ls = some s ∧ GRace true s.tr i j x .fatal .setHook) ∧
    (∃ p ls s i j x, OneWorker p ∧ gRun (gStart p) ls = some s ∧ GRace true s.tr i j x .fatal .setHandler) ∧
    (∃ p ls s i j x, OneWorker p ∧ gRun (gStart p) ls = some s ∧ GRace true s.tr i j x .log .fatalWork) := by
  refine ⟨?_, ?_, ?_, ?_⟩
  · obtain ⟨p, ls, s, i, j, h⟩ := (C90_exact true .hook .fatal .fatal).2 (.inl (by decide)); exact ⟨p, ls, s, i, j, _, h⟩
  · obtain ⟨p, ls, s, i, j, h⟩ := (C90_exact true .hook .fatal .setHook).2 (.inl (by decide)); exact ⟨p, ls, s, i, j, _, h⟩
  · obtain ⟨p, ls, s, i, j, h⟩ := (C90_exact true .handler .fatal .setHandler).2 (.inl (by decide)); exact ⟨p, ls, s, i, j, _, h⟩
  · obtain ⟨p, ls, s, i, j, h⟩ := (C90_exact true .logger .log .fatalWork).2 (.inl (by decide)); exact ⟨p, ls, s, i, j, _, h⟩

/-! ## The hypotheses can be met -/

/-- A program with three threads, run to its end; the last call destroys the logger. -/
example : let q : Nat → List GApi := fun t => if t = 1 then [.log, .setHook] else if t = 2 then [.logf] else [.log]
    let p := mainProg [.setMax, .initialize, .overrideSignals] [1, 2, 3] [.setHandler, .destroy] q
    (∀ t ∈ [1, 2, 3], ∀ a ∈ q t, a = .log ∨ a = .logf ∨ a = .setHook) ∧
    ∃ ls s, gRun (gStart p) ls = some s ∧ s.prog 0 = [] ∧ s.val .logger = false ∧ (s.tr.filter fun e => e.thr == 2 && e.api == some .logf).length = 6 := by
  intro q p
  refine ⟨by decide, List.replicate 32 0 ++ List.replicate 12 1 ++ List.replicate 8 2 ++ List.replicate 7 3 ++ List.replicate 13 0, ?_⟩
  have h : (match gRun (gStart p) (List.replicate 32 0 ++ List.replicate 12 1 ++ List.replicate 8 2 ++ List.replicate 7 3 ++ List.replicate 13 0) with
      | some s => (s.prog 0).isEmpty && !s.val .logger && (s.tr.filter fun e => e.thr == 2 && e.api == some .logf).length == 6
      | none => false) = true := by decide +kernel
  split at h
  · rename_i s hs
    simp only [Bool.and_eq_true, Bool.not_eq_true', beq_iff_eq, List.isEmpty_iff] at h
    exact ⟨s, hs, h.1.1, h.1.2, h.2⟩
  · cases h

/-- Only one thread handles fatal messages; others may do anything. -/
example : OneWorker fun t => if t = 1 then [.call .fatalWork, .call .fatalWork] else [.call .fatal, .call .log, .fork 1] := by
  intro t t' h h'
  have H : ∀ t, (.call .fatalWork : GItem) ∈ (if t = 1 then [.call .fatalWork, .call .fatalWork] else [.call .fatal, .call .log, .fork 1] : List GItem) → t = 1 := by
    intro t h
    by_cases ht : t = 1
    · exact ht
    · rw [if_neg ht] at h; simp at h
  rw [H t h, H t' h']

end G3.Props
