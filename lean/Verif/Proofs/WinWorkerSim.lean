import Verif.Model.WinWorker
import Verif.Proofs.WorkerTrStep
import Verif.Props.WorkerHist
/-
The worker on Windows does what the worker elsewhere does if every exception is replaced by a message and the removal of all sinks.
-/
namespace G3.Props
open G3

variable {M : Type}

/-- The tasks that a task stands for. -/
def exT (exc : M → Bool) : WTask M → List (WTask M)
  | .fatal m => if exc m then [.save m, .clear] else [.fatal m]
  | t => [t]

def exL (exc : M → Bool) (l : List (WTask M)) : List (WTask M) := l.flatMap (exT exc)

/-- What a sink gets. -/
def exItem (exc : M → Bool) : SItem M → SItem M
  | .fatal m => if exc m then .msg m else .fatal m
  | x => x

def exSink (exc : M → Bool) (k : SinkSt M) : SinkSt M :=
  { k with q := k.q.map (exItem exc), running := k.running.map (exItem exc), done := k.done.map (exItem exc), blocked := false }

def exDPhase (exc : M → Bool) (sub : List (WTask M)) : DPhase → DPhase
  | .clearing p => .clearing (exL exc (sub.take p)).length
  | p => p

/-- The worker thread has sent the message of an exception to all sinks. -/
def half (exc : M → Bool) (msg : Option M) : WPc M → Bool
  | .sending (.fatal m) [] => exc m
  | .clearing f => f && msg.any exc
  | .clrWait _ f => f && msg.any exc
  | _ => false

def exWpc (exc : M → Bool) (msg : Option M) : WPc M → WPc M
  | .sending (.fatal m) [] => if exc m then .idle else .sending (.fatal m) []
  | .sending x l => .sending (exItem exc x) l
  | .clearing f => .clearing (f && !msg.any exc)
  | .clrWait i f => .clrWait i (f && !msg.any exc)
  | p => p

def exPre (exc : M → Bool) : WPc M → List (WTask M)
  | .sending (.fatal m) _ => if exc m then [.clear] else []
  | _ => []

/-- The task that the worker thread is at. -/
inductive CurIs : WPc M → Option M → List (WTask M) → Prop
  | idle (o) : CurIs .idle o []
  | msg (m l o) : CurIs (.sending (.msg m) l) o [.save m]
  | fatal (m l) : CurIs (.sending (.fatal m) l) (some m) [.fatal m]
  | rmH (i o) : CurIs (.rmHeld i) o [.remove i]
  | rmW (i o) : CurIs (.rmWait i) o [.remove i]
  | clr (o) : CurIs (.clearing false) o [.clear]
  | clrF (m) : CurIs (.clearing true) (some m) [.fatal m]
  | clrW (i o) : CurIs (.clrWait i false) o [.clear]
  | clrWF (i m) : CurIs (.clrWait i true) (some m) [.fatal m]

/-- Positions in the two lists of tasks. -/
inductive PosR (exc : M → Bool) (sub : List (WTask M)) : Option Nat → Option Nat → Prop
  | none : PosR exc sub none none
  | some (p) : p ≤ sub.length → PosR exc sub (some p) (some (exL exc (sub.take p)).length)

/-- The synchronous calls: the second list has one more for every exception. -/
inductive CallsR (exc : M → Bool) (sub : List (WTask M)) : List WCall → List WCall → Prop
  | nil : CallsR exc sub [] []
  | both (c c' cs bs) : c'.kind = c.kind → c'.returned = c.returned → PosR exc sub c.pos c'.pos → CallsR exc sub cs bs → CallsR exc sub (c :: cs) (c' :: bs)
  | extra (c' cs bs) : c'.kind = .clear → CallsR exc sub cs bs → CallsR exc sub cs (c' :: bs)

/-- The state `b` of the worker elsewhere that corresponds to `s`. -/
structure SimR (exc : M → Bool) (s : YState M) (b : WState M) : Prop where
  wq : b.wq = exPre exc s.w.wpc ++ exL exc s.w.wq
  sub : b.sub = exL exc s.w.sub
  completed : b.completed = (exL exc (s.w.sub.take s.w.completed)).length + (half exc s.msg s.w.wpc).toNat
  wpc : b.wpc = exWpc exc s.msg s.w.wpc
  att : b.att = s.w.att
  n : b.n = s.w.n
  sk : b.sk = fun i => exSink exc (s.w.sk i)
  calls : CallsR exc s.w.sub s.w.calls b.calls
  failed : b.failed = s.w.failed
  phase : b.phase = exDPhase exc s.w.sub s.w.phase
  ub : b.ub = s.w.ub
  pos : ∀ p, s.w.phase = .clearing p → p ≤ s.w.sub.length
  le : s.w.completed ≤ s.w.sub.length
  cur : s.w.wpc = .ended ∨ s.w.wpc = .dead ∨ ∃ c, CurIs s.w.wpc s.msg c ∧ s.w.sub.drop s.w.completed = c ++ s.w.wq

section
variable {exc : M → Bool}

theorem exT_ne (t : WTask M) : exT exc t ≠ [] := by
  unfold exT
  split
  · split <;> simp
  · simp

theorem exL_append (a b : List (WTask M)) : exL exc (a ++ b) = exL exc a ++ exL exc b := by simp [exL]

theorem exL_single (t : WTask M) : exL exc [t] = exT exc t := by simp [exL]

theorem exL_cons (t : WTask M) (l : List (WTask M)) : exL exc (t :: l) = exT exc t ++ exL exc l := by simp [exL]

theorem exL_nil : exL exc ([] : List (WTask M)) = [] := rfl

theorem take_succ_of_drop {l r : List (WTask M)} {n : Nat} {t : WTask M} (h : l.drop n = t :: r) : l.take (n + 1) = l.take n ++ [t] := by
  have hl : l[n]? = some t := by
    have := congrArg (fun x : List (WTask M) => x[0]?) h
    simpa using this
  rw [List.take_succ, hl]; rfl

theorem exL_mono {sub : List (WTask M)} {p q : Nat} (h : p < q) (hq : q ≤ sub.length) :
    (exL exc (sub.take p)).length < (exL exc (sub.take q)).length := by
  have hp : p < sub.length := by omega
  have e : sub.take q = sub.take p ++ (sub.drop p).take (q - p) := by
    rw [← List.take_append_drop p (sub.take q), List.take_take, Nat.min_eq_left (by omega), List.drop_take]
  rw [e, exL_append, List.length_append]
  have : (sub.drop p).take (q - p) ≠ [] := by
    intro e
    have := congrArg List.length e
    simp only [List.length_take, List.length_drop, List.length_nil] at this
    omega
  obtain ⟨t, r, hr⟩ := List.exists_cons_of_ne_nil this
  rw [hr, exL_cons, List.length_append]
  have := List.length_pos_iff.2 (exT_ne (exc := exc) t)
  omega

theorem posR_more {sub : List (WTask M)} {p q : Option Nat} (h : PosR exc sub p q) (t : List (WTask M)) : PosR exc (sub ++ t) p q := by
  cases h with
  | none => exact .none
  | some p hp =>
    have := PosR.some (exc := exc) (sub := sub ++ t) p (by simp; omega)
    rwa [List.take_append_of_le_length hp] at this

theorem callsR_more {sub : List (WTask M)} {cs bs : List WCall} (h : CallsR exc sub cs bs) (t : List (WTask M)) : CallsR exc (sub ++ t) cs bs := by
  induction h with
  | nil => exact .nil
  | both c c' cs bs h1 h2 h3 _ ih => exact .both c c' cs bs h1 h2 (posR_more h3 t) ih
  | extra c' cs bs h1 _ ih => exact .extra c' cs bs h1 ih

theorem callsR_push {sub : List (WTask M)} {cs bs : List WCall} (h : CallsR exc sub cs bs) (k : WKind) {p q : Option Nat} (hp : PosR exc sub p q) :
    CallsR exc sub (cs ++ [⟨k, p, false⟩]) (bs ++ [⟨k, q, false⟩]) := by
  induction h with
  | nil => exact .both _ _ _ _ rfl rfl hp .nil
  | both c c' cs bs h1 h2 h3 _ ih => exact .both c c' _ _ h1 h2 h3 ih
  | extra c' cs bs h1 _ ih => exact .extra c' _ _ h1 ih

theorem callsR_extra {sub : List (WTask M)} {cs bs : List WCall} (h : CallsR exc sub cs bs) (q : Option Nat) :
    CallsR exc sub cs (bs ++ [⟨.clear, q, false⟩]) := by
  induction h with
  | nil => exact .extra _ _ _ rfl .nil
  | both c c' cs bs h1 h2 h3 _ ih => exact .both c c' _ _ h1 h2 h3 ih
  | extra c' cs bs h1 _ ih => exact .extra c' _ _ h1 ih

theorem callsR_ret {sub : List (WTask M)} {cs bs : List WCall} (h : CallsR exc sub cs bs) {k : Nat} {c : WCall} (hk : cs[k]? = some c) :
    ∃ k' c', bs[k']? = some c' ∧ c'.kind = c.kind ∧ c'.returned = c.returned ∧ PosR exc sub c.pos c'.pos ∧
      CallsR exc sub (cs.set k { c with returned := true }) (bs.set k' { c' with returned := true }) := by
  induction h generalizing k with
  | nil => simp at hk
  | both a a' cs bs h1 h2 h3 hr ih =>
    cases k with
    | zero =>
      simp only [List.getElem?_cons_zero, Option.some.injEq] at hk
      subst hk
      exact ⟨0, a', rfl, h1, h2, h3, .both _ _ _ _ h1 rfl h3 hr⟩
    | succ k =>
      simp only [List.getElem?_cons_succ] at hk
      obtain ⟨k', c', e1, e2, e3, e4, e5⟩ := ih hk
      exact ⟨k' + 1, c', by simpa using e1, e2, e3, e4, .both _ _ _ _ h1 h2 h3 e5⟩
  | extra a' cs bs h1 hr ih =>
    obtain ⟨k', c', e1, e2, e3, e4, e5⟩ := ih hk
    exact ⟨k' + 1, c', by simpa using e1, e2, e3, e4, .extra _ _ _ h1 e5⟩

theorem callsR_adding {sub : List (WTask M)} {cs bs : List WCall} (h : CallsR exc sub cs bs) (i : Nat) : adding bs i = adding cs i := by
  induction h with
  | nil => rfl
  | both c c' cs bs h1 h2 h3 _ ih =>
    unfold adding at ih ⊢
    rw [List.any_cons, List.any_cons, ih, h1, h2]
  | extra c' cs bs h1 _ ih =>
    unfold adding at ih ⊢
    rw [List.any_cons, ih, h1]
    simp

theorem exWpc_holds (o : Option M) (p : WPc M) (i : Nat) : (exWpc exc o p).holds i = p.holds i := by
  unfold exWpc
  split
  · split <;> rfl
  all_goals rfl

theorem exDPhase_bgNull (sub : List (WTask M)) (p : DPhase) : (exDPhase exc sub p).bgNull = p.bgNull := by cases p <;> rfl

theorem exDPhase_gone (sub : List (WTask M)) (p : DPhase) : (exDPhase exc sub p).queueGone = p.queueGone := by cases p <;> rfl

theorem exDPhase_returned (sub : List (WTask M)) (p : DPhase) : exDPhase exc sub p = .returned ↔ p = .returned := by cases p <;> simp [exDPhase]

theorem exDPhase_more {sub : List (WTask M)} {p : DPhase} (h : ∀ q, p = .clearing q → q ≤ sub.length) (t : List (WTask M)) :
    exDPhase exc (sub ++ t) p = exDPhase exc sub p := by
  cases p with
  | clearing q => simp only [exDPhase]; rw [List.take_append_of_le_length (h q rfl)]
  | _ => rfl

theorem exSink_upd {sk : Nat → SinkSt M} {f g : SinkSt M → SinkSt M} (j : Nat) (h : ∀ k, exSink exc (f k) = g (exSink exc k)) :
    (fun i => exSink exc (updSink sk j f i)) = updSink (fun i => exSink exc (sk i)) j g := by
  funext i
  unfold updSink
  split
  · exact h _
  · rfl

theorem owned_congr {s b : WState M} {i : Nat} (h1 : (b.sk i).refs = (s.sk i).refs) (h2 : b.att = s.att) (h3 : adding b.calls i = adding s.calls i)
    (h4 : b.wpc.holds i = s.wpc.holds i) : owned b i = owned s i := by
  unfold owned; rw [h1, h2, h3, h4]

/-! ### Changes on both sides -/

theorem sim_push {s : YState M} {b : WState M} (h : SimR exc s b) (t : WTask M) :
    SimR exc { s with w := pushTask s.w t } { b with wq := b.wq ++ exT exc t, sub := b.sub ++ exT exc t } where
  wq := by simp only [pushTask]; rw [h.wq, exL_append, exL_single, List.append_assoc]
  sub := by simp only [pushTask]; rw [h.sub, exL_append, exL_single]
  completed := by simp only [pushTask]; rw [h.completed, List.take_append_of_le_length h.le]
  wpc := h.wpc
  att := h.att
  n := h.n
  sk := h.sk
  calls := callsR_more h.calls _
  failed := h.failed
  phase := by simp only [pushTask]; rw [h.phase, exDPhase_more h.pos]
  ub := h.ub
  pos := by intro p hp; have := h.pos p hp; simp only [pushTask, List.length_append]; omega
  le := by have := h.le; simp only [pushTask, List.length_append]; omega
  cur := by
    rcases h.cur with e | e | ⟨c, h1, h2⟩
    · exact Or.inl e
    · exact Or.inr (Or.inl e)
    · refine Or.inr (Or.inr ⟨c, h1, ?_⟩)
      simp only [pushTask]
      rw [List.drop_append_of_le_length h.le, h2, List.append_assoc]

theorem sim_calls {s : YState M} {b : WState M} (h : SimR exc s b) {cs bs : List WCall} (hc : CallsR exc s.w.sub cs bs) :
    SimR exc { s with w := { s.w with calls := cs } } { b with calls := bs } := { h with calls := hc }

theorem sim_sk {s : YState M} {b : WState M} (h : SimR exc s b) {sk sk' : Nat → SinkSt M} (hc : sk' = fun i => exSink exc (sk i)) :
    SimR exc { s with w := { s.w with sk := sk } } { b with sk := sk' } := { h with sk := hc }

theorem sim_n {s : YState M} {b : WState M} (h : SimR exc s b) (n : Nat) :
    SimR exc { s with w := { s.w with n := n } } { b with n := n } := { h with n := rfl }

theorem sim_att {s : YState M} {b : WState M} (h : SimR exc s b) (a : List Nat) :
    SimR exc { s with w := { s.w with att := a } } { b with att := a } := { h with att := rfl }

theorem sim_failed {s : YState M} {b : WState M} (h : SimR exc s b) (a : List Nat) :
    SimR exc { s with w := { s.w with failed := a } } { b with failed := a } := { h with failed := rfl }

theorem sim_err {s : YState M} {b : WState M} (h : SimR exc s b) (a a' : List (ErrLine M)) :
    SimR exc { s with w := { s.w with err := a } } { b with err := a' } := { h with }

theorem sim_phase {s : YState M} {b : WState M} (h : SimR exc s b) {p p' : DPhase} (hp : p' = exDPhase exc s.w.sub p)
    (hl : ∀ q, p = .clearing q → q ≤ s.w.sub.length) :
    SimR exc { s with w := { s.w with phase := p } } { b with phase := p' } := { h with phase := hp, pos := hl }

theorem held_same {s : YState M} {b : WState M} (h : SimR exc s b) : heldMsg s.w s.msg = s.msg := by
  unfold heldMsg
  split
  · next m l e =>
    rcases h.cur with e' | e' | ⟨c, h1, _⟩
    · rw [e] at e'; cases e'
    · rw [e] at e'; cases e'
    · rw [e] at h1
      generalize s.msg = o at h1
      cases h1; rfl
  · rfl

/-- A change that leaves the worker thread where it is. -/
theorem sim_still {s : YState M} {w : WState M} {b' : WState M} (hw : w.wpc = s.w.wpc) {b : WState M} (h : SimR exc s b)
    (h' : SimR exc { s with w := w } b') : SimR exc { s with w := w, msg := heldMsg w s.msg } b' := by
  have : heldMsg w s.msg = s.msg := by
    have e := held_same h
    unfold heldMsg at e ⊢
    rw [hw]; exact e
  rw [this]; exact h'

theorem sim_owned {s : YState M} {b : WState M} (h : SimR exc s b) (i : Nat) : owned b i = owned s.w i := by
  refine owned_congr ?_ h.att (callsR_adding h.calls i) ?_
  · rw [h.sk]; rfl
  · rw [h.wpc, exWpc_holds]

theorem sim_ready {s : YState M} {b : WState M} (h : SimR exc s b) {c c' : WCall} (hp : PosR exc s.w.sub c.pos c'.pos) (hr : ready s.w c = true) :
    ready b c' = true := by
  unfold ready at hr ⊢
  generalize c.pos = p at hp hr
  generalize c'.pos = q at hp
  cases hp with
  | none => rfl
  | some p hl =>
    simp only [Bool.or_eq_true, decide_eq_true_eq] at hr ⊢
    rcases hr with hr | hr
    · left
      rw [h.completed]
      have := exL_mono (exc := exc) hr h.le
      omega
    · right; rw [h.phase, exDPhase_gone]; exact hr

theorem sim_alive {s : YState M} {b : WState M} (h : SimR exc s b) (ho : s.over = false) : b.ub = false ∧ b.wpc.isDead = false ∧ s.w.ub = false ∧ s.w.wpc.isDead = false := by
  unfold YState.over at ho
  simp only [Bool.or_eq_false_iff] at ho
  refine ⟨by rw [h.ub]; exact ho.1, ?_, ho.1, ho.2⟩
  rw [h.wpc]
  have := ho.2
  generalize s.w.wpc = p at this
  unfold exWpc
  split
  · split <;> rfl
  all_goals first | rfl | exact this

/-- One step on the other side. -/
theorem by_one {b b' : WState M} {s : YState M} (ht : Tr b b') (ha : b.ub = false ∧ b.wpc.isDead = false) (hu : b'.ub = false)
    (hret : b.phase = .returned → b'.calls.length = b.calls.length) (h : SimR exc s b') :
    ∃ bl b', wRun b bl = some b' ∧ SimR exc s b' := by
  obtain ⟨l, hl⟩ := step_of_tr ha.1 ha.2 hu hret ht
  exact ⟨[l], b', by simp only [wRun, hl, Option.bind_some], h⟩

theorem by_two {b b1 b' : WState M} {s : YState M} (ht : Tr b b1) (ht1 : Tr b1 b') (ha : b.ub = false ∧ b.wpc.isDead = false)
    (h1 : b1.ub = false ∧ b1.wpc.isDead = false) (hu : b'.ub = false)
    (hret : b.phase = .returned → b1.calls.length = b.calls.length) (hret1 : b1.phase = .returned → b'.calls.length = b1.calls.length)
    (h : SimR exc s b') :
    ∃ bl b', wRun b bl = some b' ∧ SimR exc s b' := by
  obtain ⟨l, hl⟩ := step_of_tr ha.1 ha.2 h1.1 hret ht
  obtain ⟨l1, hl1⟩ := step_of_tr h1.1 h1.2 hu hret1 ht1
  exact ⟨[l, l1], b', by simp only [wRun, hl, hl1, Option.bind_some], h⟩

theorem exItem_stop (x : SItem M) : exItem exc x = .stop ↔ x = .stop := by
  cases x with
  | fatal m => simp only [exItem]; split <;> simp
  | _ => simp [exItem]

theorem sim_ystep1 {s : YState M} {b w' : WState M} (h : SimR exc s b) (ho : s.over = false) (hret : s.w.phase = .returned → w'.calls.length = s.w.calls.length)
    (ht : Tr s.w w') (hu' : w'.ub = false) (hx : w'.wpc = .dead → ¬ (atExit s.w = true ∧ s.msg.any exc = true)) :
    ∃ bl b', wRun b bl = some b' ∧ SimR exc { s with w := w', msg := heldMsg w' s.msg } b' := by
  obtain ⟨hbu, hbd, hsu, hsd⟩ := sim_alive h ho
  have ha := And.intro hbu hbd
  have hbg : ∀ v, s.w.phase.bgNull = v → b.phase.bgNull = v := fun v e => by rw [h.phase, exDPhase_bgNull]; exact e
  have hpr : s.w.phase ≠ .returned → b.phase ≠ .returned := fun e e' => e ((exDPhase_returned s.w.sub s.w.phase).1 (by rw [← h.phase]; exact e'))
  have hq : ∀ i, b.sk i = exSink exc (s.w.sk i) := fun i => by rw [h.sk]
  have cur : ∀ p, s.w.wpc = p → p ≠ .ended → p ≠ .dead → ∃ c, CurIs p s.msg c ∧ s.w.sub.drop s.w.completed = c ++ s.w.wq := by
    rintro p rfl h1 h2
    rcases h.cur with e | e | e
    · exact absurd e h1
    · exact absurd e h2
    · exact e
  have next : ∀ {t : WTask M} {r}, s.w.sub.drop s.w.completed = t :: r →
      (exL exc (s.w.sub.take (s.w.completed + 1))).length = (exL exc (s.w.sub.take s.w.completed)).length + (exT exc t).length ∧
      s.w.completed + 1 ≤ s.w.sub.length ∧ s.w.sub.drop (s.w.completed + 1) = r := by
    intro t r e
    refine ⟨by rw [take_succ_of_drop e, exL_append, exL_single, List.length_append], ?_, ?_⟩
    · have := congrArg List.length e
      simp only [List.length_drop, List.length_cons] at this
      omega
    · rw [← List.drop_drop, e]; rfl
  have idleD : ∀ {l}, s.w.wpc = .idle → s.w.wq = l → s.w.sub.drop s.w.completed = l := by
    intro l hp hl
    obtain ⟨c, hc, e⟩ := cur _ hp (by simp) (by simp)
    cases hc
    rw [e, hl]; rfl
  have idleQ : ∀ {l}, s.w.wpc = .idle → s.w.wq = l → b.wq = exL exc l := by
    intro l hp hl
    rw [h.wq, hp, hl]; rfl
  have idleC : s.w.wpc = .idle → b.completed = (exL exc (s.w.sub.take s.w.completed)).length := by
    intro hp
    rw [h.completed, hp]; rfl
  have idleP : s.w.wpc = .idle → b.wpc = .idle := by
    intro hp
    rw [h.wpc, hp]; rfl
  have noHalf : ∀ p, s.w.wpc = p → half exc s.msg p = false → b.completed = (exL exc (s.w.sub.take s.w.completed)).length := by
    rintro p rfl e
    rw [h.completed, e]; rfl
  have noPre : ∀ p, s.w.wpc = p → exPre exc p = [] → b.wq = exL exc s.w.wq := by
    rintro p rfl e
    rw [h.wq, e]; rfl
  have fatalCase : ∀ m, s.w.phase.bgNull = false → ∃ bl b', wRun b bl = some b' ∧ SimR exc { s with w := pushTask s.w (.fatal m) } b' := by
    intro m hb
    have hr := bgNull_ret hb
    have base := sim_push h (.fatal m)
    cases e : exc m with
    | false =>
      have e1 : exT exc (.fatal m) = [.fatal m] := by simp [exT, e]
      rw [e1] at base
      exact by_one (.fatal b m (hbg _ hb)) ha hbu (fun _ => rfl) base
    | true =>
      have e1 : exT exc (.fatal m) = [.save m, .clear] := by simp [exT, e]
      rw [e1] at base
      refine by_two (.save b m (hbg _ hb)) (.clrQ _ (hbg _ hb)) ha ⟨hbu, hbd⟩ hbu (fun _ => rfl) (fun e => absurd e (hpr hr)) ?_
      have := sim_calls base (bs := b.calls ++ [⟨.clear, some (b.sub ++ [WTask.save m]).length, false⟩]) (callsR_extra base.calls _)
      simpa only [pushTask, List.append_assoc, List.cons_append, List.nil_append] using this
  cases ht with
  | ub => cases hu'
  | save m hb => exact by_one (.save b m (hbg _ hb)) ha hbu (fun _ => rfl) (sim_still rfl h (sim_push h (.save m)))
  | fatal m hb => obtain ⟨bl, b', h1, h2⟩ := fatalCase m hb; exact ⟨bl, b', h1, sim_still rfl h h2⟩
  | addQ hb =>
    refine by_one (.addQ b (hbg _ hb)) ha hbu (fun e => absurd e (hpr (bgNull_ret hb))) (sim_still rfl h ?_)
    have h1 := sim_sk (sim_n (sim_push h (.add s.w.n)) (s.w.n + 1)) (sk := updSink s.w.sk s.w.n (fun _ => .fresh)) (sk' := updSink b.sk b.n (fun _ => .fresh))
      (by rw [exSink_upd s.w.n (g := fun _ => .fresh) (fun _ => rfl), h.n, h.sk])
    have h2 := sim_calls h1 (callsR_push h1.calls (.add s.w.n) (.some s.w.sub.length (by simp [pushTask])))
    have e : (exL exc ((pushTask s.w (.add s.w.n)).sub.take s.w.sub.length)).length = b.sub.length := by
      simp only [pushTask]; rw [List.take_append_of_le_length (Nat.le_refl _), List.take_length, h.sub]
    have e2 : b.n = s.w.n := h.n
    simp only [pushTask] at h2 e
    rw [e] at h2
    rw [e2]
    rw [e2] at h2
    exact h2
  | addN hb hr =>
    refine by_one (.addN b (hbg _ hb) (hpr hr)) ha hbu (fun e => absurd e (hpr hr)) (sim_still rfl h ?_)
    have h1 := sim_sk (sim_n h (s.w.n + 1)) (sk := updSink s.w.sk s.w.n (fun _ => .fresh)) (sk' := updSink b.sk b.n (fun _ => .fresh))
      (by rw [exSink_upd s.w.n (g := fun _ => .fresh) (fun _ => rfl), h.n, h.sk])
    have h2 := sim_calls h1 (callsR_push h1.calls (.add s.w.n) .none)
    rw [show b.n = s.w.n from h.n] at h2 ⊢
    exact h2
  | rmQ i hi hb =>
    refine by_one (.rmQ b i (by rw [h.n]; exact hi) (hbg _ hb)) ha hbu (fun e => absurd e (hpr (bgNull_ret hb))) (sim_still rfl h ?_)
    have h1 := sim_push h (.remove i)
    have h2 := sim_calls h1 (callsR_push h1.calls (.remove i) (.some s.w.sub.length (by simp [pushTask])))
    have e : (exL exc ((pushTask s.w (.remove i)).sub.take s.w.sub.length)).length = b.sub.length := by
      simp only [pushTask]; rw [List.take_append_of_le_length (Nat.le_refl _), List.take_length, h.sub]
    simp only [pushTask] at h2 e
    rw [e] at h2
    exact h2
  | rmN i hi hb =>
    have hr : s.w.phase ≠ .returned := fun e => by have := hret e; simp at this
    exact by_one (.rmN b i (by rw [h.n]; exact hi) (hbg _ hb)) ha hbu (fun e => absurd e (hpr hr)) (sim_still rfl h (sim_calls h (callsR_push h.calls (.remove i) .none)))
  | clrQ hb =>
    refine by_one (.clrQ b (hbg _ hb)) ha hbu (fun e => absurd e (hpr (bgNull_ret hb))) (sim_still rfl h ?_)
    have h1 := sim_push h .clear
    have h2 := sim_calls h1 (callsR_push h1.calls .clear (.some s.w.sub.length (by simp [pushTask])))
    have e : (exL exc ((pushTask s.w .clear).sub.take s.w.sub.length)).length = b.sub.length := by
      simp only [pushTask]; rw [List.take_append_of_le_length (Nat.le_refl _), List.take_length, h.sub]
    simp only [pushTask] at h2 e
    rw [e] at h2
    exact h2
  | clrN hb =>
    have hr : s.w.phase ≠ .returned := fun e => by have := hret e; simp at this
    exact by_one (.clrN b (hbg _ hb)) ha hbu (fun e => absurd e (hpr hr)) (sim_still rfl h (sim_calls h (callsR_push h.calls .clear .none)))
  | retAddKeep k i c hc h1 h2 hk ho' =>
    obtain ⟨k', c', e1, e2, e3, e4, e5⟩ := callsR_ret h.calls hc
    have hs := sim_calls h e5
    refine by_one (.retAddKeep b k' i c' e1 (by rw [e3, h1]) (sim_ready h e4 h2) (by rw [e2, hk]) ?_) ha hbu (fun _ => by simp) (sim_still rfl h hs)
    rw [sim_owned hs]; exact ho'
  | retAddDrop k i c hc h1 h2 hk ho' =>
    obtain ⟨k', c', e1, e2, e3, e4, e5⟩ := callsR_ret h.calls hc
    have hs := sim_calls h e5
    refine by_one (.retAddDrop b k' i c' e1 (by rw [e3, h1]) (sim_ready h e4 h2) (by rw [e2, hk]) ?_) ha hbu (fun _ => by simp) (sim_still rfl h (sim_sk hs ?_))
    · rw [sim_owned hs]; exact ho'
    · rw [h.sk]; exact (exSink_upd i fun k => by simp [exSink, SinkSt.stop, exItem]).symm
  | retOther k c hc h1 h2 hk =>
    obtain ⟨k', c', e1, e2, e3, e4, e5⟩ := callsR_ret h.calls hc
    exact by_one (.retOther b k' c' e1 (by rw [e3, h1]) (sim_ready h e4 h2) (by rw [e2]; exact hk)) ha hbu (fun _ => by simp) (sim_still rfl h (sim_calls h e5))
  | hold i hi ho' =>
    exact by_one (.hold b i (by rw [h.n]; exact hi) (by rw [sim_owned h]; exact ho')) ha hbu (fun _ => rfl) (sim_still rfl h (sim_sk h (by
      rw [h.sk]; exact (exSink_upd i fun k => by rfl).symm)))
  | holdFail i c hi ho' =>
    have hs := sim_failed h (s.w.failed ++ [c])
    rw [← h.failed] at hs
    exact by_one (.holdFail b i c (by rw [h.n]; exact hi) (by rw [sim_owned h]; exact ho')) ha hbu (fun _ => rfl) (sim_still rfl h (by rw [h.failed] at hs ⊢; exact hs))
  | call i c hi hr =>
    exact by_one (.call b i c (by rw [h.n]; exact hi) (by rw [hq]; exact hr)) ha hbu (fun _ => rfl) (sim_still rfl h (sim_sk h (by
      rw [h.sk]; exact (exSink_upd i fun k => by simp [exSink, SinkSt.push, exItem]).symm)))
  | relKeep i hi hr ho' =>
    have hs := sim_sk h (sk := updSink s.w.sk i fun k => { k with refs := k.refs - 1 }) (sk' := updSink b.sk i fun k => { k with refs := k.refs - 1 }) (by
      rw [h.sk]; exact (exSink_upd i fun k => by rfl).symm)
    exact by_one (.relKeep b i (by rw [h.n]; exact hi) (by rw [hq]; exact hr) (by rw [sim_owned hs]; exact ho')) ha hbu (fun _ => rfl) (sim_still rfl h hs)
  | relDrop i hi hr ho' =>
    have hs := sim_sk h (sk := updSink s.w.sk i fun k => { k with refs := k.refs - 1 }) (sk' := updSink b.sk i fun k => { k with refs := k.refs - 1 }) (by
      rw [h.sk]; exact (exSink_upd i fun k => by rfl).symm)
    exact by_one (.relDrop b i (by rw [h.n]; exact hi) (by rw [hq]; exact hr) (by rw [sim_owned hs]; exact ho')) ha hbu (fun _ => rfl) (sim_still rfl h (sim_sk h (by
      rw [h.sk]; exact (exSink_upd i fun k => by simp [exSink, SinkSt.stop, exItem]).symm)))
  | reap i hi h1 h2 =>
    exact by_one (.reap b i (by rw [h.n]; exact hi) (by rw [hq]; exact h1) (by rw [hq]; exact h2)) ha hbu (fun _ => rfl) (sim_still rfl h (sim_sk h (by
      rw [h.sk]; exact (exSink_upd i fun k => by rfl).symm)))
  | dStart hp =>
    have hp' : b.phase = .notStarted := by rw [h.phase, hp]; rfl
    have h1 := sim_push h .clear
    refine by_one (.dStart b hp') ha hbu (fun _ => rfl) (sim_still rfl h (sim_phase h1 ?_ ?_))
    · simp only [exDPhase, pushTask]; rw [List.take_append_of_le_length (Nat.le_refl _), List.take_length, h.sub]
    · intro q e; cases e; simp [pushTask]
  | dStop p hp hc =>
    have hp' : b.phase = .clearing (exL exc (s.w.sub.take p)).length := by rw [h.phase, hp]; rfl
    refine by_one (.dStop b _ hp' ?_) ha hbu (fun _ => rfl) (sim_still rfl h (sim_phase (sim_push h .done) rfl (by intro q e; cases e)))
    have := exL_mono (exc := exc) hc h.le
    rw [h.completed]; omega
  | dJoin hp hw =>
    have hp' : b.phase = .stopping := by rw [h.phase, hp]; rfl
    have hw' : b.wpc = .ended := by rw [h.wpc, hw]; rfl
    have h1 := sim_phase h (p := .dropping) (p' := .dropping) rfl (by intro q e; cases e)
    refine by_one (.dJoin b hp' hw') ha hbu (fun _ => rfl) (sim_still rfl h { h1 with wq := ?_, cur := Or.inl hw })
    rw [hw]; rfl
  | dRet hp ha' =>
    have hp' : b.phase = .dropping := by rw [h.phase, hp]; rfl
    exact by_one (.dRet b hp' (by rw [h.att]; exact ha')) ha hbu (fun _ => rfl) (sim_still rfl h (sim_phase h rfl (by intro q e; cases e)))
  | dKeep i r hp ha' ho' =>
    have hp' : b.phase = .dropping := by rw [h.phase, hp]; rfl
    have hs := sim_att h r
    exact by_one (.dKeep b i r hp' (by rw [h.att]; exact ha') (by rw [sim_owned hs]; exact ho')) ha hbu (fun _ => rfl) (sim_still rfl h hs)
  | dDrop i r hp ha' ho' =>
    have hp' : b.phase = .dropping := by rw [h.phase, hp]; rfl
    have hs := sim_att h r
    exact by_one (.dDrop b i r hp' (by rw [h.att]; exact ha') (by rw [sim_owned hs]; exact ho')) ha hbu (fun _ => rfl) (sim_still rfl h
      (sim_phase (sim_sk hs (by rw [h.sk]; exact (exSink_upd i fun k => by simp [exSink, SinkSt.stop, exItem]).symm)) rfl (by intro q e; cases e)))
  | dReap i hp he =>
    have hp' : b.phase = .waitSink i := by rw [h.phase, hp]; rfl
    exact by_one (.dReap b i hp' (by rw [hq]; exact he)) ha hbu (fun _ => rfl) (sim_still rfl h
      (sim_phase (sim_sk h (sk := updSink s.w.sk i fun k => { k with destroyed := true }) (sk' := updSink b.sk i fun k => { k with destroyed := true })
        (by rw [h.sk]; exact (exSink_upd i fun k => by rfl).symm)) (p := .dropping) rfl (by intro q e; cases e)))
  | sPop i x r hi h1 h2 h3 =>
    exact by_one (.sPop b i (exItem exc x) (r.map (exItem exc)) (by rw [h.n]; exact hi) (by rw [hq]; simp [exSink, h1]) (by rw [hq]; exact h2)
      (by rw [hq]; simp [exSink, h3])) ha hbu (fun _ => rfl) (sim_still rfl h (sim_sk h (by rw [h.sk]; exact (exSink_upd i fun k => by simp [exSink]).symm)))
  | sFinStop i hi h1 h2 =>
    exact by_one (.sFinStop b i (by rw [h.n]; exact hi) (by rw [hq]; rfl) (by rw [hq]; simp [exSink, h2, exItem])) ha hbu (fun _ => rfl) (sim_still rfl h
      (sim_sk h (by rw [h.sk]; exact (exSink_upd i fun k => by simp [exSink]).symm)))
  | sFin i x hi h1 h2 h3 =>
    exact by_one (.sFin b i (exItem exc x) (by rw [h.n]; exact hi) (by rw [hq]; rfl) (by rw [hq]; simp [exSink, h2])
      (fun e => h3 ((exItem_stop x).1 e))) ha hbu (fun _ => rfl) (sim_still rfl h (sim_sk h (by rw [h.sk]; exact (exSink_upd i fun k => by simp [exSink]).symm)))
  | sFatal i x m hi h1 h2 h3 hb =>
    obtain ⟨bl, b', e1, e2⟩ := fatalCase m hb
    refine ⟨bl, b', e1, sim_still rfl h ?_⟩
    have := sim_sk e2 (sk := updSink s.w.sk i fun k => { k with blocked := true }) (sk' := b'.sk) (by
      rw [e2.sk]; funext j; simp only [updSink, pushTask]; split <;> rfl)
    exact this
  | tSaveNone m r hp hw ha' =>
    obtain ⟨n1, n2, n3⟩ := next (idleD hp hw)
    refine by_one (.tSaveNone b m (exL exc r) (idleP hp) (idleQ hp hw) (by rw [h.att]; exact ha')) ha hbu (fun _ => rfl) (sim_still rfl h
      { h with wq := ?_, completed := ?_, le := n2, cur := ?_ })
    · rw [hp]; rfl
    · rw [hp, idleC hp, n1]; rfl
    · refine Or.inr (Or.inr ⟨[], ?_, n3⟩); rw [hp]; exact .idle _
  | tSave m r hp hw ha' =>
    have hd := idleD hp hw
    refine by_one (.tSave b m (exL exc r) (idleP hp) (idleQ hp hw) (by rw [h.att]; exact ha')) ha hbu (fun _ => rfl)
      { h with wq := rfl, completed := idleC hp, wpc := ?_, cur := ?_ }
    · simp only [exWpc, exItem]; rw [h.att]
    · exact Or.inr (Or.inr ⟨_, .msg m _ _, hd⟩)
  | tFatal m r hp hw =>
    have hd := idleD hp hw
    obtain ⟨n1, n2, n3⟩ := next hd
    have hq' := idleQ hp hw
    cases e : exc m with
    | false =>
      have e1 : exT exc (.fatal m) = [.fatal m] := by simp [exT, e]
      rw [exL_cons, e1] at hq'
      refine by_one (.tFatal b m (exL exc r) (idleP hp) hq') ha hbu (fun _ => rfl) { h with wq := ?_, completed := ?_, wpc := ?_, cur := ?_ }
      · dsimp only; cases s.w.att <;> simp [exPre, e]
      · dsimp only; rw [idleC hp]; cases s.w.att <;> simp [half, e]
      · dsimp only; rw [h.att]; cases s.w.att <;> simp [exWpc, exItem, e]
      · exact Or.inr (Or.inr ⟨_, .fatal m _, hd⟩)
    | true =>
      have e1 : exT exc (.fatal m) = [.save m, .clear] := by simp [exT, e]
      rw [exL_cons, e1] at hq'
      cases ea : s.w.att with
      | nil =>
        refine by_one (.tSaveNone b m (.clear :: exL exc r) (idleP hp) hq' (by rw [h.att]; exact ea)) ha hbu (fun _ => rfl)
          { h with wq := ?_, completed := ?_, wpc := ?_, att := ?_, cur := ?_ }
        · simp [exPre, e]
        · simp [half, e, idleC hp]
        · simp [exWpc, e, idleP hp]
        · dsimp only; rw [h.att, ea]
        · exact Or.inr (Or.inr ⟨_, .fatal m _, hd⟩)
      | cons i rest =>
        refine by_one (.tSave b m (.clear :: exL exc r) (idleP hp) hq' (by rw [h.att, ea]; simp)) ha hbu (fun _ => rfl)
          { h with wq := ?_, completed := ?_, wpc := ?_, att := ?_, cur := ?_ }
        · simp [exPre, e]
        · simp [half, idleC hp]
        · simp [exWpc, exItem, e, h.att, ea]
        · dsimp only; rw [h.att, ea]
        · exact Or.inr (Or.inr ⟨_, .fatal m _, hd⟩)
  | tAdd i r hp hw =>
    obtain ⟨n1, n2, n3⟩ := next (idleD hp hw)
    refine by_one (.tAdd b i (exL exc r) (idleP hp) (idleQ hp hw)) ha hbu (fun _ => rfl) (sim_still rfl h
      { h with wq := ?_, completed := ?_, att := ?_, le := n2, cur := ?_ })
    · rw [hp]; rfl
    · rw [hp, idleC hp, n1]; rfl
    · dsimp only; rw [h.att]
    · refine Or.inr (Or.inr ⟨[], ?_, n3⟩); rw [hp]; exact .idle _
  | tRmYes i r hp hw ho' =>
    have hd := idleD hp hw
    refine by_one (.tRmYes b i (exL exc r) (idleP hp) (idleQ hp hw) (by rw [sim_owned h]; exact ho')) ha hbu (fun _ => rfl)
      { h with wq := rfl, completed := idleC hp, wpc := rfl, att := ?_, cur := Or.inr (Or.inr ⟨_, .rmH i _, hd⟩) }
    dsimp only; rw [h.att]
  | tRmNo i r hp hw ho' =>
    obtain ⟨n1, n2, n3⟩ := next (idleD hp hw)
    refine by_one (.tRmNo b i (exL exc r) (idleP hp) (idleQ hp hw) (by rw [sim_owned h]; exact ho')) ha hbu (fun _ => rfl) (sim_still rfl h
      { h with wq := ?_, completed := ?_, le := n2, cur := ?_ })
    · rw [hp]; rfl
    · rw [hp, idleC hp, n1]; rfl
    · refine Or.inr (Or.inr ⟨[], ?_, n3⟩); rw [hp]; exact .idle _
  | tClear r hp hw =>
    have hd := idleD hp hw
    exact by_one (.tClear b (exL exc r) (idleP hp) (idleQ hp hw)) ha hbu (fun _ => rfl)
      { h with wq := rfl, completed := idleC hp, wpc := rfl, cur := Or.inr (Or.inr ⟨_, .clr _, hd⟩) }
  | tDone r hp hw =>
    obtain ⟨n1, n2, n3⟩ := next (idleD hp hw)
    refine by_one (.tDone b (exL exc r) (idleP hp) (idleQ hp hw)) ha hbu (fun _ => rfl)
      { h with wq := rfl, completed := ?_, wpc := rfl, le := n2, cur := Or.inl rfl }
    dsimp only; rw [idleC hp, n1]; rfl
  | send x i rest hp =>
    obtain ⟨c, hc, hd⟩ := cur _ hp (by simp) (by simp)
    cases x with
    | msg m =>
      cases hc
      have hp' : b.wpc = .sending (.msg m) (i :: rest) := by rw [h.wpc, hp]; rfl
      refine by_one (.send b _ i rest hp') ha hbu (fun _ => rfl) (s := { s with w := _, msg := s.msg })
        { h with wq := noPre _ hp rfl, completed := noHalf _ hp rfl, wpc := rfl, sk := ?_, cur := Or.inr (Or.inr ⟨_, .msg m _ _, hd⟩) }
      dsimp only; rw [h.sk]; exact (exSink_upd i fun k => by simp [exSink, SinkSt.push, exItem]).symm
    | fatal m =>
      generalize eo : s.msg = o at hc
      cases hc
      have eh : heldMsg { s.w with sk := updSink s.w.sk i fun k => k.push (.fatal m), wpc := .sending (.fatal m) rest } s.msg = s.msg := by rw [eo]; rfl
      cases e : exc m with
      | false =>
        have hp' : b.wpc = .sending (.fatal m) (i :: rest) := by rw [h.wpc, hp]; simp [exWpc, exItem, e]
        refine by_one (.send b _ i rest hp') ha hbu (fun _ => rfl) { h with wq := ?_, completed := ?_, wpc := ?_, sk := ?_, cur := Or.inr (Or.inr ⟨_, .fatal m _, hd⟩) }
        · rw [noPre _ hp (by simp [exPre, e])]; simp [exPre, e]
        · rw [noHalf _ hp rfl]; cases rest <;> simp [half, e]
        · cases rest <;> simp [exWpc, exItem, e]
        · dsimp only; rw [h.sk]; exact (exSink_upd i fun k => by simp [exSink, SinkSt.push, exItem, e]).symm
      | true =>
        have hp' : b.wpc = .sending (.msg m) (i :: rest) := by rw [h.wpc, hp]; simp [exWpc, exItem, e]
        have hwq : b.wq = .clear :: exL exc s.w.wq := by rw [h.wq, hp]; simp [exPre, e]
        have hsk : (updSink b.sk i fun k => k.push (.msg m)) = fun j => exSink exc (updSink s.w.sk i (fun k => k.push (.fatal m)) j) := by
          rw [h.sk]; exact (exSink_upd i fun k => by simp [exSink, SinkSt.push, exItem, e]).symm
        cases rest with
        | nil =>
          refine by_two (.send b _ i [] hp') (.sendEnd _ _ rfl (by intro m' e'; cases e')) ha ⟨hbu, rfl⟩ hbu (fun _ => rfl) (fun _ => rfl)
            { h with wq := ?_, completed := ?_, wpc := ?_, sk := hsk, cur := Or.inr (Or.inr ⟨_, .fatal m _, hd⟩) }
          · simp [exPre, e, hwq]
          · dsimp only; rw [noHalf _ hp rfl]; simp [half, e]
          · simp [exWpc, e]
        | cons j rest =>
          refine by_one (.send b _ i (j :: rest) hp') ha hbu (fun _ => rfl)
            { h with wq := ?_, completed := ?_, wpc := ?_, sk := hsk, cur := Or.inr (Or.inr ⟨_, .fatal m _, hd⟩) }
          · simp [exPre, e, hwq]
          · dsimp only; rw [noHalf _ hp rfl]; simp [half]
          · simp [exWpc, exItem, e]
    | call c => cases hc
    | stop => cases hc
  | sendEndF m hp =>
    obtain ⟨c, hc, hd⟩ := cur _ hp (by simp) (by simp)
    generalize eo : s.msg = o at hc
    cases hc
    cases e : exc m with
    | false =>
      have hp' : b.wpc = .sending (.fatal m) [] := by rw [h.wpc, hp]; simp [exWpc, e]
      refine by_one (.sendEndF b m hp') ha hbu (fun _ => rfl) { h with wq := ?_, completed := ?_, wpc := ?_, cur := ?_ }
      · rw [noPre _ hp (by simp [exPre, e])]; rfl
      · dsimp only [heldMsg]; rw [noHalf _ hp (by simp [half, e])]; simp [half, e]
      · dsimp only [heldMsg]; simp [exWpc, e]
      · dsimp only [heldMsg]; exact Or.inr (Or.inr ⟨_, .clrF m, hd⟩)
    | true =>
      have hp' : b.wpc = .idle := by rw [h.wpc, hp]; simp [exWpc, e]
      have hwq : b.wq = .clear :: exL exc s.w.wq := by rw [h.wq, hp]; simp [exPre, e]
      refine by_one (.tClear b _ hp' hwq) ha hbu (fun _ => rfl) { h with wq := rfl, completed := ?_, wpc := ?_, cur := ?_ }
      · dsimp only [heldMsg]; rw [h.completed, hp, eo]; simp [half, e]
      · dsimp only [heldMsg]; simp [exWpc, e]
      · dsimp only [heldMsg]; exact Or.inr (Or.inr ⟨_, .clrF m, hd⟩)
  | sendEnd x hp hx' =>
    obtain ⟨c, hc, hd⟩ := cur _ hp (by simp) (by simp)
    cases x with
    | msg m =>
      cases hc
      obtain ⟨n1, n2, n3⟩ := next hd
      have hp' : b.wpc = .sending (.msg m) [] := by rw [h.wpc, hp]; rfl
      refine by_one (.sendEnd b _ hp' (by intro m' e'; cases e')) ha hbu (fun _ => rfl)
        { h with wq := noPre _ hp rfl, completed := ?_, wpc := rfl, le := n2, cur := Or.inr (Or.inr ⟨_, .idle _, n3⟩) }
      dsimp only; rw [noHalf _ hp rfl, n1]; rfl
    | fatal m => exact absurd rfl (hx' m)
    | call c => cases hc
    | stop => cases hc
  | rmKeep i hp ho' =>
    obtain ⟨c, hc, hd⟩ := cur _ hp (by simp) (by simp)
    cases hc
    obtain ⟨n1, n2, n3⟩ := next hd
    have hp' : b.wpc = .rmHeld i := by rw [h.wpc, hp]; rfl
    refine by_one (.rmKeep b i hp' ?_) ha hbu (fun _ => rfl)
      { h with wq := noPre _ hp rfl, completed := ?_, wpc := rfl, le := n2, cur := Or.inr (Or.inr ⟨_, .idle _, n3⟩) }
    · rw [← ho']; exact owned_congr (by dsimp only; rw [hq]; rfl) h.att (callsR_adding h.calls i) rfl
    · dsimp only; rw [noHalf _ hp rfl, n1]; rfl
  | rmDrop i hp ho' =>
    obtain ⟨c, hc, hd⟩ := cur _ hp (by simp) (by simp)
    cases hc
    have hp' : b.wpc = .rmHeld i := by rw [h.wpc, hp]; rfl
    refine by_one (.rmDrop b i hp' ?_) ha hbu (fun _ => rfl)
      { h with wq := noPre _ hp rfl, completed := noHalf _ hp rfl, wpc := rfl, sk := ?_, cur := Or.inr (Or.inr ⟨_, .rmW i _, hd⟩) }
    · rw [← ho']; exact owned_congr (by dsimp only; rw [hq]; rfl) h.att (callsR_adding h.calls i) rfl
    · dsimp only; rw [h.sk]; exact (exSink_upd i fun k => by simp [exSink, SinkSt.stop, exItem]).symm
  | rmReap i hp he =>
    obtain ⟨c, hc, hd⟩ := cur _ hp (by simp) (by simp)
    cases hc
    obtain ⟨n1, n2, n3⟩ := next hd
    have hp' : b.wpc = .rmWait i := by rw [h.wpc, hp]; rfl
    refine by_one (.rmReap b i hp' (by rw [hq]; exact he)) ha hbu (fun _ => rfl)
      { h with wq := noPre _ hp rfl, completed := ?_, wpc := rfl, sk := ?_, le := n2, cur := Or.inr (Or.inr ⟨_, .idle _, n3⟩) }
    · dsimp only; rw [noHalf _ hp rfl, n1]; rfl
    · dsimp only; rw [h.sk]; exact (exSink_upd i fun k => by rfl).symm
  | clrEndF hp ha' =>
    have e : s.msg.any exc = false := by
      cases e : s.msg.any exc with
      | false => rfl
      | true => exact absurd ⟨by simp [atExit, hp, ha'], e⟩ (hx rfl)
    have hp' : b.wpc = .clearing true := by rw [h.wpc, hp]; simp [exWpc, e]
    refine by_one (.clrEndF b hp' (by rw [h.att]; exact ha')) ha hbu (fun _ => rfl)
      { h with wq := noPre _ hp rfl, completed := ?_, wpc := rfl, cur := Or.inr (Or.inl rfl) }
    dsimp only; rw [noHalf _ hp (by simp [half, e])]; rfl
  | clrEnd hp ha' =>
    obtain ⟨c, hc, hd⟩ := cur _ hp (by simp) (by simp)
    cases hc
    obtain ⟨n1, n2, n3⟩ := next hd
    have hp' : b.wpc = .clearing false := by rw [h.wpc, hp]; rfl
    refine by_one (.clrEnd b hp' (by rw [h.att]; exact ha')) ha hbu (fun _ => rfl)
      { h with wq := noPre _ hp rfl, completed := ?_, wpc := rfl, le := n2, cur := Or.inr (Or.inr ⟨_, .idle _, n3⟩) }
    dsimp only; rw [noHalf _ hp rfl, n1]; rfl
  | clrKeep f i r hp ha' ho' =>
    have hp' : b.wpc = .clearing (f && !s.msg.any exc) := by rw [h.wpc, hp]; rfl
    have hs := sim_att h r
    exact by_one (.clrKeep b _ i r hp' (by rw [h.att]; exact ha') (by rw [sim_owned hs]; exact ho')) ha hbu (fun _ => rfl) (sim_still rfl h hs)
  | clrDrop f i r hp ha' ho' =>
    obtain ⟨c, hc, hd⟩ := cur _ hp (by simp) (by simp)
    have hp' : b.wpc = .clearing (f && !s.msg.any exc) := by rw [h.wpc, hp]; rfl
    have hs := sim_att h r
    refine by_one (.clrDrop b _ i r hp' (by rw [h.att]; exact ha') (by rw [sim_owned hs]; exact ho')) ha hbu (fun _ => rfl)
      { hs with wq := noPre _ hp rfl, completed := ?_, wpc := rfl, sk := ?_, cur := ?_ }
    · dsimp only; rw [h.completed, hp]; rfl
    · dsimp only; rw [h.sk]; exact (exSink_upd i fun k => by simp [exSink, SinkSt.stop, exItem]).symm
    · refine Or.inr (Or.inr ⟨c, ?_, hd⟩)
      dsimp only [heldMsg]
      generalize s.msg = o at hc
      cases hc with
      | clr => exact .clrW i _
      | clrF m => exact .clrWF i m
  | clrReap i f hp he =>
    obtain ⟨c, hc, hd⟩ := cur _ hp (by simp) (by simp)
    have hp' : b.wpc = .clrWait i (f && !s.msg.any exc) := by rw [h.wpc, hp]; rfl
    refine by_one (.clrReap b i _ hp' (by rw [hq]; exact he)) ha hbu (fun _ => rfl)
      { h with wq := noPre _ hp rfl, completed := ?_, wpc := rfl, sk := ?_, cur := ?_ }
    · dsimp only; rw [h.completed, hp]; rfl
    · dsimp only; rw [h.sk]; exact (exSink_upd i fun k => by rfl).symm
    · refine Or.inr (Or.inr ⟨c, ?_, hd⟩)
      dsimp only [heldMsg]
      generalize s.msg = o at hc
      cases hc with
      | clrW => exact .clr _
      | clrWF _ m => exact .clrF m

end
end G3.Props
