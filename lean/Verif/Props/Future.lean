import Verif.Model.Future
import Verif.Spec.Future
import Mathlib.Data.List.Nodup
import Mathlib.Tactic.Tauto
/-
Futures of asynchronous calls: C18.
-/
namespace G3.Props
open G3 G3.Spec

variable {S E R : Type}

/-- What a request for a call is answered with at once. -/
inductive Asked (S E R : Type)
  | accepted (f : FTask S E R)
  | refused (v : FutVal E R)

/-- The requests of a schedule. -/
def asks : List (FLabel S E R) → List (Asked S E R)
  | [] => []
  | .spawn f :: r => .accepted f :: asks r
  | .spawnNull _ :: r => .refused .nullWorker :: asks r
  | .expired _ :: r => .refused .badWeak :: asks r
  | .exec :: r => asks r
  | .drop :: r => asks r

/-- The accepted calls with the numbers of their futures; `k` futures exist already. -/
def acceptedFrom (k : Nat) : List (Asked S E R) → List (Nat × FTask S E R)
  | [] => []
  | .accepted f :: r => (k, f) :: acceptedFrom (k + 1) r
  | .refused _ :: r => acceptedFrom (k + 1) r

def accepted (l : List (Asked S E R)) : List (Nat × FTask S E R) := acceptedFrom 0 l

theorem acceptedFrom_append (l m : List (Asked S E R)) : ∀ k, acceptedFrom k (l ++ m) = acceptedFrom k l ++ acceptedFrom (k + l.length) m := by
  induction l with
  | nil => intro k; rfl
  | cons a l ih =>
    intro k
    have e : k + (l.length + 1) = k + 1 + l.length := by omega
    cases a with
    | accepted f => simp only [List.cons_append, acceptedFrom, ih, List.length_cons, e]
    | refused v => simp only [List.cons_append, acceptedFrom, ih, List.length_cons, e]

theorem acceptedFrom_range (l : List (Asked S E R)) : ∀ k, ∀ x ∈ acceptedFrom k l, k ≤ x.1 ∧ x.1 < k + l.length := by
  induction l with
  | nil => intro k x hx; cases hx
  | cons a l ih =>
    intro k x hx
    cases a with
    | accepted f =>
      rcases List.mem_cons.1 hx with rfl | hx
      · simp
      · have := ih (k + 1) x hx; simp only [List.length_cons]; omega
    | refused v => have := ih (k + 1) x hx; simp only [List.length_cons]; omega

theorem acceptedFrom_nodup (l : List (Asked S E R)) : ∀ k, ((acceptedFrom k l).map (·.1)).Nodup := by
  induction l with
  | nil => intro k; exact List.nodup_nil
  | cons a l ih =>
    intro k
    cases a with
    | accepted f =>
      simp only [acceptedFrom, List.map_cons, List.nodup_cons]
      refine ⟨?_, ih _⟩
      intro hm
      obtain ⟨x, hx, hxe⟩ := List.mem_map.1 hm
      have := (acceptedFrom_range l (k + 1) x hx).1
      omega
    | refused v => exact ih _

/-- How many calls a schedule executes, and whether it destroys the queue. -/
def execs : List (FLabel S E R) → Nat
  | [] => 0
  | .exec :: r => execs r + 1
  | _ :: r => execs r

def dropped : List (FLabel S E R) → Bool
  | [] => false
  | .drop :: _ => true
  | _ :: r => dropped r

/-- What the future of accepted call number j holds after m calls have been executed. -/
def futureOf (o : S) (fs : List (FTask S E R)) (m : Nat) (gone : Bool) (j : Nat) : Option (FutVal E R) :=
  if j < m then (outcome o fs j).map FutVal.ofResult else some (if gone then .broken else .pending)

theorem asks_append (l m : List (FLabel S E R)) : asks (l ++ m) = asks l ++ asks m := by
  induction l with
  | nil => rfl
  | cons a l ih => cases a <;> simp only [List.cons_append, asks, ih]

theorem execs_append (l m : List (FLabel S E R)) : execs (l ++ m) = execs l + execs m := by
  induction l with
  | nil => simp [execs]
  | cons a l ih => cases a <;> simp only [List.cons_append, execs, ih] <;> omega

theorem dropped_append (l m : List (FLabel S E R)) : dropped (l ++ m) = (dropped l || dropped m) := by
  induction l with
  | nil => simp [dropped]
  | cons a l ih => cases a <;> simp [dropped, ih]

theorem futRun_append (l m : List (FLabel S E R)) : ∀ s, futRun s (l ++ m) = (futRun s l).bind (futRun · m) := by
  induction l with
  | nil => intro s; rfl
  | cons a l ih =>
    intro s
    simp only [List.cons_append, futRun]
    cases futStep s a with
    | none => rfl
    | some t => exact ih t

structure FInv (o : S) (a : List (Asked S E R)) (m : Nat) (gone : Bool) (s : FutSt S E R) : Prop where
  le : m ≤ (accepted a).length
  q : s.q = if gone then [] else (accepted a).drop m
  alive : s.alive = !gone
  obj : s.obj = after o (((accepted a).map (·.2)).take m)
  len : s.slots.length = a.length
  acc : ∀ (j k : Nat) (f : FTask S E R), (accepted a)[j]? = some (k, f) → s.slots[k]? = futureOf o ((accepted a).map (·.2)) m gone j
  refused : ∀ (k : Nat) (v : FutVal E R), a[k]? = some (.refused v) → s.slots[k]? = some v

theorem breakAll_length (q : List (Nat × FTask S E R)) : ∀ sl : List (FutVal E R), (breakAll sl q).length = sl.length := by
  induction q with
  | nil => intro sl; rfl
  | cons a q ih => intro sl; obtain ⟨k, f⟩ := a; simp [breakAll, ih]

theorem breakAll_not (q : List (Nat × FTask S E R)) (k : Nat) : ∀ sl : List (FutVal E R), k ∉ q.map (·.1) → (breakAll sl q)[k]? = sl[k]? := by
  induction q with
  | nil => intro sl _; rfl
  | cons a q ih =>
    intro sl h
    obtain ⟨i, f⟩ := a
    simp only [List.map_cons, List.mem_cons, not_or] at h
    rw [breakAll, ih _ h.2, List.getElem?_set_ne (Ne.symm h.1)]

theorem breakAll_mem (q : List (Nat × FTask S E R)) (k : Nat) : ∀ sl : List (FutVal E R), k ∈ q.map (·.1) → k < sl.length → (breakAll sl q)[k]? = some .broken := by
  induction q with
  | nil => intro sl h; cases h
  | cons a q ih =>
    intro sl h hl
    obtain ⟨i, f⟩ := a
    rw [breakAll]
    by_cases hm : k ∈ q.map (·.1)
    · exact ih _ hm (by simpa using hl)
    · rw [breakAll_not _ _ _ hm]
      have : k = i := by
        rcases List.mem_cons.1 h with h | h
        · exact h
        · exact absurd h hm
      subst this
      simp [hl]

/-- Different accepted calls have different futures, and these are not those of refused calls. -/
theorem accepted_inj {a : List (Asked S E R)} {i j : Nat} {x y : Nat × FTask S E R} (hi : (accepted a)[i]? = some x) (hj : (accepted a)[j]? = some y)
    (h : x.1 = y.1) : i = j := by
  have hn := acceptedFrom_nodup a 0
  obtain ⟨hi1, hi2⟩ := List.getElem?_eq_some_iff.1 hi
  obtain ⟨hj1, hj2⟩ := List.getElem?_eq_some_iff.1 hj
  apply (List.Nodup.getElem_inj_iff hn (hi := by simpa [accepted] using hi1) (hj := by simpa [accepted] using hj1)).1
  simp only [List.getElem_map]
  show ((accepted a)[i]).1 = ((accepted a)[j]).1
  rw [hi2, hj2, h]

theorem acceptedFrom_at (a : List (Asked S E R)) : ∀ n x, x ∈ acceptedFrom n a → a[x.1 - n]? = some (.accepted x.2) := by
  induction a with
  | nil => intro n x h; cases h
  | cons b a ih =>
    intro n x h
    cases b with
    | accepted f =>
      rcases List.mem_cons.1 h with rfl | h
      · simp
      · have h1 := (acceptedFrom_range a (n + 1) x h).1
        have e : x.1 - n = (x.1 - (n + 1)) + 1 := by omega
        rw [e, List.getElem?_cons_succ]; exact ih _ _ h
    | refused v =>
      have h1 := (acceptedFrom_range a (n + 1) x h).1
      have e : x.1 - n = (x.1 - (n + 1)) + 1 := by omega
      rw [e, List.getElem?_cons_succ]; exact ih _ _ h

theorem accepted_at {a : List (Asked S E R)} {x : Nat × FTask S E R} (h : x ∈ accepted a) : a[x.1]? = some (.accepted x.2) := by
  have := acceptedFrom_at a 0 x h; simpa using this

theorem acceptedFrom_of_at (a : List (Asked S E R)) : ∀ n k f, a[k]? = some (.accepted f) → (n + k, f) ∈ acceptedFrom n a := by
  induction a with
  | nil => intro n k f h; simp at h
  | cons b a ih =>
    intro n k f h
    cases k with
    | zero =>
      simp only [List.getElem?_cons_zero, Option.some.injEq] at h
      subst h
      exact List.mem_cons_self
    | succ k =>
      rw [List.getElem?_cons_succ] at h
      have := ih (n + 1) k f h
      rw [show n + 1 + k = n + (k + 1) by omega] at this
      cases b with
      | accepted g => exact List.mem_cons_of_mem _ this
      | refused v => exact this

theorem accepted_of_at {a : List (Asked S E R)} {k : Nat} {f : FTask S E R} (h : a[k]? = some (.accepted f)) : (k, f) ∈ accepted a := by
  have := acceptedFrom_of_at a 0 k f h; rwa [Nat.zero_add] at this

theorem accepted_lt {a : List (Asked S E R)} {x : Nat × FTask S E R} (h : x ∈ accepted a) : x.1 < a.length := by
  have := (acceptedFrom_range a 0 x h).2; omega

/-- Later calls do not matter for the outcome of earlier ones. -/
theorem outcome_append {o : S} {fs gs : List (FTask S E R)} {j : Nat} (hj : j < fs.length) : outcome o (fs ++ gs) j = outcome o fs j := by
  unfold outcome
  rw [List.getElem?_append_left hj, List.take_append_of_le_length (by omega)]

theorem futureOf_append {o : S} {fs gs : List (FTask S E R)} {m j : Nat} {g : Bool} (hj : j < fs.length) :
    futureOf o (fs ++ gs) m g j = futureOf o fs m g j := by
  unfold futureOf; rw [outcome_append hj]

theorem accepted_snoc_acc (a : List (Asked S E R)) (f : FTask S E R) : accepted (a ++ [.accepted f]) = accepted a ++ [(a.length, f)] := by
  simp [accepted, acceptedFrom_append, acceptedFrom]

theorem accepted_snoc_ref (a : List (Asked S E R)) (v : FutVal E R) : accepted (a ++ [.refused v]) = accepted a := by
  simp [accepted, acceptedFrom_append, acceptedFrom]

theorem finv_refuse {o : S} {a : List (Asked S E R)} {m : Nat} {g : Bool} {s : FutSt S E R} (h : FInv o a m g s) (v : FutVal E R) :
    FInv o (a ++ [.refused v]) m g { s with slots := s.slots ++ [v] } := by
  refine ⟨?_, ?_, h.alive, ?_, ?_, ?_, ?_⟩
  · rw [accepted_snoc_ref]; exact h.le
  · rw [accepted_snoc_ref]; exact h.q
  · rw [accepted_snoc_ref]; exact h.obj
  · simp [h.len]
  · intro j k f hj
    rw [accepted_snoc_ref] at hj ⊢
    have hk : k < s.slots.length := by rw [h.len]; exact accepted_lt (List.mem_of_getElem? hj)
    show (s.slots ++ [v])[k]? = _
    rw [List.getElem?_append_left hk]; exact h.acc j k f hj
  · intro k w hk
    show (s.slots ++ [v])[k]? = _
    by_cases hl : k < a.length
    · rw [List.getElem?_append_left hl] at hk
      rw [List.getElem?_append_left (by rw [h.len]; exact hl)]; exact h.refused k w hk
    · have hl' : a.length ≤ k := Nat.le_of_not_lt hl
      rw [List.getElem?_append_right hl'] at hk
      rw [List.getElem?_append_right (by rw [h.len]; exact hl'), h.len]
      cases hd : k - a.length with
      | zero => rw [hd] at hk; simp at hk ⊢; exact hk
      | succ n => rw [hd] at hk; simp at hk

theorem finv_step {o : S} {a : List (Asked S E R)} {m : Nat} {g : Bool} {s s' : FutSt S E R} {l : FLabel S E R} (h : FInv o a m g s)
    (hs : futStep s l = some s') : FInv o (a ++ asks [l]) (m + execs [l]) (g || dropped [l]) s' := by
  cases l with
  | spawn f =>
    cases hg : g with
    | true => have := h.alive; rw [hg] at this; simp [futStep, this] at hs
    | false =>
      subst hg
      have hal := h.alive
      simp only [futStep, hal, Bool.not_not, Bool.false_eq_true, if_false, Option.some.injEq] at hs
      subst hs
      have hq := h.q
      simp only [Bool.false_eq_true, if_false] at hq
      simp only [asks, execs, dropped, Nat.add_zero, Bool.or_false]
      refine ⟨?_, ?_, ?_, ?_, ?_, ?_, ?_⟩
      · rw [accepted_snoc_acc]; have := h.le; simp; omega
      · rw [accepted_snoc_acc]
        simp only [Bool.false_eq_true, if_false]
        rw [List.drop_append_of_le_length h.le, hq, h.len]
      · rfl
      · rw [accepted_snoc_acc, List.map_append, List.take_append_of_le_length (by simpa using h.le)]; exact h.obj
      · simp [h.len]
      · intro j k f' hj
        rw [accepted_snoc_acc] at hj ⊢
        show (s.slots ++ [_])[k]? = _
        by_cases hl : j < (accepted a).length
        · rw [List.getElem?_append_left hl] at hj
          have hk : k < s.slots.length := by rw [h.len]; exact accepted_lt (List.mem_of_getElem? hj)
          rw [List.getElem?_append_left hk, List.map_append, futureOf_append (by simpa using hl)]
          exact h.acc j k f' hj
        · have hl' : (accepted a).length ≤ j := Nat.le_of_not_lt hl
          rw [List.getElem?_append_right hl'] at hj
          cases hd : j - (accepted a).length with
          | succ n => rw [hd] at hj; simp at hj
          | zero =>
            rw [hd] at hj; simp at hj
            obtain ⟨rfl, rfl⟩ := hj
            have hle := h.le
            rw [← h.len]
            simp [futureOf, show ¬ j < m by omega]
      · intro k w hk
        show (s.slots ++ [_])[k]? = _
        by_cases hl : k < a.length
        · rw [List.getElem?_append_left hl] at hk
          rw [List.getElem?_append_left (by rw [h.len]; exact hl)]; exact h.refused k w hk
        · have hl' : a.length ≤ k := Nat.le_of_not_lt hl
          rw [List.getElem?_append_right hl'] at hk
          cases hd : k - a.length with
          | zero => rw [hd] at hk; simp at hk
          | succ n => rw [hd] at hk; simp at hk
  | spawnNull f =>
    simp only [futStep, Option.some.injEq] at hs; subst hs
    simp only [asks, execs, dropped, Nat.add_zero, Bool.or_false]
    exact finv_refuse h _
  | expired f =>
    simp only [futStep, Option.some.injEq] at hs; subst hs
    simp only [asks, execs, dropped, Nat.add_zero, Bool.or_false]
    exact finv_refuse h _
  | exec =>
    have hq := h.q
    cases hqs : s.q with
    | nil => simp [futStep, hqs] at hs
    | cons x r =>
      obtain ⟨k0, f0⟩ := x
      simp only [futStep, hqs, Option.some.injEq] at hs
      subst hs
      cases hg : g with
      | true => rw [hg, hqs] at hq; simp at hq
      | false =>
        subst hg
        rw [hqs] at hq
        simp only [Bool.false_eq_true, if_false] at hq
        have hx : (accepted a)[m]? = some (k0, f0) := by
          have := congrArg (·[0]?) hq
          simpa using this.symm
        have hm : m < (accepted a).length := (List.getElem?_eq_some_iff.1 hx).1
        have hfm : ((accepted a).map (·.2))[m]? = some f0 := by rw [List.getElem?_map, hx]; rfl
        simp only [asks, execs, dropped, List.append_nil, Bool.or_false, Nat.zero_add]
        refine ⟨hm, ?_, h.alive, ?_, ?_, ?_, ?_⟩
        · simp only [Bool.false_eq_true, if_false]
          have := congrArg List.tail hq
          simpa using this
        · rw [List.take_add_one, hfm]
          simp only [Option.toList_some, after, List.foldl_append, List.foldl_cons, List.foldl_nil]
          rw [h.obj]; rfl
        · simp [h.len]
        · intro j k f hj
          show (s.slots.set k0 _)[k]? = _
          by_cases hjm : j = m
          · subst hjm
            rw [hx] at hj
            injection hj with hj
            injection hj with hk hf
            subst hk; subst hf
            have hk : k0 < s.slots.length := by rw [h.len]; exact accepted_lt (List.mem_of_getElem? hx)
            rw [List.getElem?_set_self hk]
            simp only [futureOf, Nat.lt_succ_self, if_true, outcome, hfm, Option.map_some, h.obj]
          · have hne : k0 ≠ k := fun e => hjm (accepted_inj hj hx e.symm)
            rw [List.getElem?_set_ne hne, h.acc j k f hj]
            unfold futureOf
            by_cases hlt : j < m
            · rw [if_pos hlt, if_pos (by omega)]
            · have hlt' : ¬ j < m + 1 := by omega
              rw [if_neg hlt, if_neg hlt']
        · intro k v hk
          show (s.slots.set k0 _)[k]? = _
          have hne : k0 ≠ k := by
            intro e
            have := accepted_at (List.mem_of_getElem? hx)
            rw [show (k0, f0).1 = k from e, hk] at this
            simp at this
          rw [List.getElem?_set_ne hne]; exact h.refused k v hk
  | drop =>
    cases hg : g with
    | true => have := h.alive; rw [hg] at this; simp [futStep, this] at hs
    | false =>
      subst hg
      have hal := h.alive
      simp only [futStep, hal, Bool.not_not, Bool.false_eq_true, if_false, Option.some.injEq] at hs
      subst hs
      have hq := h.q
      simp only [Bool.false_eq_true, if_false] at hq
      simp only [asks, execs, dropped, Nat.add_zero, Bool.or_true, List.append_nil]
      refine ⟨h.le, rfl, rfl, h.obj, ?_, ?_, ?_⟩
      · show (breakAll s.slots s.q).length = _
        rw [breakAll_length, h.len]
      · intro j k f hj
        show (breakAll s.slots s.q)[k]? = _
        by_cases hlt : j < m
        · rw [breakAll_not]
          · rw [h.acc j k f hj]; simp [futureOf, hlt]
          · rw [hq]
            intro hm
            obtain ⟨y, hy, hye⟩ := List.mem_map.1 hm
            obtain ⟨i, hi⟩ := List.mem_iff_getElem?.1 hy
            rw [List.getElem?_drop] at hi
            have := accepted_inj hj hi hye.symm
            omega
        · have hk : k < s.slots.length := by rw [h.len]; exact accepted_lt (List.mem_of_getElem? hj)
          rw [breakAll_mem _ _ _ _ hk]
          · simp [futureOf, hlt]
          · rw [hq]
            refine List.mem_map.2 ⟨(k, f), ?_, rfl⟩
            apply List.mem_iff_getElem?.2
            refine ⟨j - m, ?_⟩
            rw [List.getElem?_drop, show m + (j - m) = j by omega]; exact hj
      · intro k v hk
        show (breakAll s.slots s.q)[k]? = _
        rw [breakAll_not]
        · exact h.refused k v hk
        · rw [hq]
          intro hm
          obtain ⟨y, hy, hye⟩ := List.mem_map.1 hm
          have := accepted_at (List.mem_of_mem_drop hy)
          rw [hye, hk] at this
          simp at this

theorem finv_run {o : S} {ls : List (FLabel S E R)} : ∀ {a : List (Asked S E R)} {m : Nat} {g : Bool} {s s' : FutSt S E R}, FInv o a m g s →
    futRun s ls = some s' → FInv o (a ++ asks ls) (m + execs ls) (g || dropped ls) s' := by
  induction ls with
  | nil => intro a m g s s' h hr; cases hr; simpa [asks, execs, dropped] using h
  | cons l ls ih =>
    intro a m g s s' h hr
    simp only [futRun] at hr
    cases hs : futStep s l with
    | none => rw [hs] at hr; cases hr
    | some t =>
      rw [hs] at hr
      have := ih (finv_step h hs) hr
      rw [List.append_assoc, ← asks_append, Nat.add_assoc, ← execs_append, Bool.or_assoc, ← dropped_append] at this
      exact this

/-- The object before any call. -/
def futStart (o : S) : FutSt S E R := { obj := o, q := [], slots := [] }

theorem finv_start (o : S) : FInv o ([] : List (Asked S E R)) 0 false (futStart o : FutSt S E R) :=
  ⟨Nat.le_refl _, rfl, rfl, rfl, rfl, fun j k f h => by simp [accepted, acceptedFrom] at h, fun k v h => by simp at h⟩

/-- C18: one future per request, in order; the accepted calls are executed one after the other in the order of the requests, each at
most once, and nothing else touches the object. -/
theorem C18_future_sequential {o : S} {ls : List (FLabel S E R)} {s : FutSt S E R} (h : futRun (futStart o) ls = some s) :
    s.slots.length = (asks ls).length ∧ execs ls ≤ (accepted (asks ls)).length ∧
    s.obj = after o (((accepted (asks ls)).map (·.2)).take (execs ls)) := by
  have := finv_run (finv_start o) h
  simp only [List.nil_append, Nat.zero_add, Bool.false_or] at this
  exact ⟨this.len, this.le, this.obj⟩

/-- C18: the future of an accepted call holds the result of that call, or the exception it threw, as soon as the call has been executed,
nothing before, and `broken_promise` if the queue was destroyed without executing it. -/
theorem C18_future_result {o : S} {ls : List (FLabel S E R)} {s : FutSt S E R} {j k : Nat} {f : FTask S E R}
    (h : futRun (futStart o) ls = some s) (hj : (accepted (asks ls))[j]? = some (k, f)) :
    s.slots[k]? = some (if j < execs ls then FutVal.ofResult (f (after o (((accepted (asks ls)).map (·.2)).take j))).1
      else if dropped ls then .broken else .pending) := by
  have := finv_run (finv_start o) h
  simp only [List.nil_append, Nat.zero_add, Bool.false_or] at this
  rw [this.acc j k f hj]
  unfold futureOf outcome
  rw [List.getElem?_map, hj]
  by_cases hl : j < execs ls <;> simp [hl]

/-- C18: a value stored is the value returned and an exception stored is the exception thrown. -/
theorem C18_future_stores (r : R) (e : E) : FutVal.ofResult (.ok r : Except E R) = .value r ∧ FutVal.ofResult (.error e : Except E R) = .thrown e :=
  ⟨rfl, rfl⟩

/-- C18: request number k without a worker, or through the handle of a removed sink, executes nothing and its future holds the exception at
once and for ever. -/
theorem C18_future_refused {o : S} {ls : List (FLabel S E R)} {s : FutSt S E R} {k : Nat} {v : FutVal E R}
    (h : futRun (futStart o) ls = some s) (hk : (asks ls)[k]? = some (.refused v)) :
    s.slots[k]? = some v ∧ (v = .nullWorker ∨ v = .badWeak) ∧ ∀ f, (k, f) ∉ accepted (asks ls) := by
  have := finv_run (finv_start o) h
  simp only [List.nil_append, Nat.zero_add, Bool.false_or] at this
  refine ⟨this.refused k v hk, ?_, ?_⟩
  · have hm : Asked.refused v ∈ asks ls := List.mem_of_getElem? hk
    clear hk this h
    induction ls with
    | nil => cases hm
    | cons l ls ih => cases l <;> simp [asks] at hm <;> tauto
  · intro f hf
    have := accepted_at hf
    rw [hk] at this
    simp at this

/-- The futures of queued calls hold nothing yet. -/
theorem finv_waiting {o : S} {a : List (Asked S E R)} {m : Nat} {g : Bool} {s : FutSt S E R} (h : FInv o a m g s) {x : Nat × FTask S E R}
    (hx : x ∈ s.q) : s.slots[x.1]? = some .pending := by
  have hq := h.q
  cases hg : g with
  | true => rw [hg] at hq; simp only [if_true] at hq; rw [hq] at hx; cases hx
  | false =>
    subst hg
    simp only [Bool.false_eq_true, if_false] at hq
    rw [hq] at hx
    obtain ⟨i, hi⟩ := List.mem_iff_getElem?.1 hx
    rw [List.getElem?_drop] at hi
    have := h.acc (m + i) x.1 x.2 hi
    rw [this, futureOf, if_neg (by omega)]
    rfl

theorem finv_stable {o : S} {l : List (FLabel S E R)} {k : Nat} {v : FutVal E R} (hv : v ≠ .pending) : ∀ {a : List (Asked S E R)} {m : Nat} {g : Bool}
    {s s' : FutSt S E R}, FInv o a m g s → futRun s l = some s' → s.slots[k]? = some v → s'.slots[k]? = some v := by
  induction l with
  | nil => intro a m g s s' _ hr hk; cases hr; exact hk
  | cons l ls ih =>
    intro a m g s s' h hr hk
    simp only [futRun] at hr
    cases hs : futStep s l with
    | none => rw [hs] at hr; cases hr
    | some t =>
      rw [hs] at hr
      refine ih (finv_step h hs) hr ?_
      have hl : k < s.slots.length := (List.getElem?_eq_some_iff.1 hk).1
      cases l with
      | spawn f =>
        simp only [futStep] at hs
        split at hs
        · cases hs
        · cases hs; show (s.slots ++ [_])[k]? = _; rw [List.getElem?_append_left hl, hk]
      | spawnNull f => cases hs; show (s.slots ++ [_])[k]? = _; rw [List.getElem?_append_left hl, hk]
      | expired f => cases hs; show (s.slots ++ [_])[k]? = _; rw [List.getElem?_append_left hl, hk]
      | exec =>
        cases hqs : s.q with
        | nil => simp [futStep, hqs] at hs
        | cons x r =>
          obtain ⟨k0, f0⟩ := x
          simp only [futStep, hqs, Option.some.injEq] at hs
          subst hs
          show (s.slots.set k0 _)[k]? = _
          have hw := finv_waiting h (x := (k0, f0)) (by rw [hqs]; exact List.mem_cons_self)
          have hne : k0 ≠ k := by
            intro e
            subst e
            rw [hk] at hw
            injection hw with hw
            exact hv hw
          rw [List.getElem?_set_ne hne, hk]
      | drop =>
        simp only [futStep] at hs
        split at hs
        · cases hs
        · cases hs
          show (breakAll s.slots s.q)[k]? = _
          rw [breakAll_not, hk]
          intro hm
          obtain ⟨y, hy, hye⟩ := List.mem_map.1 hm
          have hw := finv_waiting h hy
          rw [hye, hk] at hw
          injection hw with hw
          exact hv hw

/-- C18: a future that holds something keeps it. -/
theorem C18_future_stable {o : S} {ls l : List (FLabel S E R)} {s s' : FutSt S E R} {k : Nat} {v : FutVal E R}
    (h : futRun (futStart o) ls = some s) (hr : futRun s l = some s') (hk : s.slots[k]? = some v) (hv : v ≠ .pending) : s'.slots[k]? = some v :=
  finv_stable hv (finv_run (finv_start o) h) hr hk

/-- C18: the thread can execute the next call as long as one is queued, and `~Active`, which executes all of them (C17), leaves no future empty. -/
theorem C18_future_all {o : S} {ls : List (FLabel S E R)} {s : FutSt S E R} (h : futRun (futStart o) ls = some s) (hd : dropped ls = false) :
    (s.q = [] ↔ execs ls = (accepted (asks ls)).length) ∧ (s.q ≠ [] → ∃ s', futStep s .exec = some s') ∧
    (s.q = [] → ∀ k : Nat, s.slots[k]? ≠ some .pending ∧ s.slots[k]? ≠ some .broken) := by
  have hv := finv_run (finv_start o) h
  simp only [List.nil_append, Nat.zero_add, Bool.false_or, hd] at hv
  have hq := hv.q
  simp only [Bool.false_eq_true, if_false] at hq
  have hle := hv.le
  have hiff : s.q = [] ↔ execs ls = (accepted (asks ls)).length := by
    rw [hq, List.drop_eq_nil_iff]; omega
  refine ⟨hiff, ?_, ?_⟩
  · intro hne
    cases hs : s.q with
    | nil => exact absurd hs hne
    | cons x r => exact ⟨_, by simp only [futStep, hs]; rfl⟩
  · intro he k
    by_cases hk : k < s.slots.length
    · have hk' : k < (asks ls).length := by rw [← hv.len]; exact hk
      obtain ⟨x, hx⟩ : ∃ x, (asks ls)[k]? = some x := ⟨_, List.getElem?_eq_getElem hk'⟩
      cases x with
      | refused v =>
        obtain ⟨h1, h2, _⟩ := C18_future_refused h hx
        rw [h1]
        rcases h2 with rfl | rfl <;> simp
      | accepted f =>
        obtain ⟨j, hj⟩ := List.mem_iff_getElem?.1 (accepted_of_at hx)
        have := C18_future_result h hj
        rw [this, if_pos (by have := (List.getElem?_eq_some_iff.1 hj).1; rw [hiff.1 he]; exact this)]
        generalize (f (after o (((accepted (asks ls)).map (·.2)).take j))).1 = r
        cases r <;> simp [FutVal.ofResult]
    · rw [List.getElem?_eq_none (Nat.le_of_not_lt hk)]; simp

/-- The theorems apply: two calls on a counter, the second of which throws, a call without a worker and one through an expired handle. -/
def incr : FTask Nat String Nat := fun n => (.ok n, n + 1)
def fails : FTask Nat String Nat := fun n => (.error "no", n + 10)

example : (futRun (futStart 5) [.spawn incr, .spawnNull incr, .spawn fails, .exec, .expired incr, .spawn incr, .exec]).map (fun s => (s.obj, s.slots)) =
    some (16, [.value 5, .nullWorker, .thrown "no", .badWeak, .pending]) := by rfl

example : (futRun (futStart 5) [.spawn incr, .spawn incr, .exec, .drop]).map (fun s => (s.obj, s.slots)) = some (6, [.value 5, .broken]) := by rfl

end G3.Props
