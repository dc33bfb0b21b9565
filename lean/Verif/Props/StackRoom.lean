import Verif.Spec.StackRoom
import Mathlib.Data.List.Induction
/-
C125: crashes and the room on the stack.
-/
namespace G3.Props
open G3 G3.Spec

theorem stackRun_snoc (E : StackEnv) (b : Bool) (ops : List StackOp) (o : StackOp) : stackRun E b (ops ++ [o]) = stackStep E b (stackRun E b ops) o := by
  simp [stackRun, List.foldl_append]

theorem stackRun_append (E : StackEnv) (b : Bool) (ops r : List StackOp) : stackRun E b (ops ++ r) = r.foldl (stackStep E b) (stackRun E b ops) := by
  simp [stackRun, List.foldl_append]

theorem stack_stay (E : StackEnv) (b : Bool) (r : List StackOp) (s : StackState) (h : s.ended.isSome = true) : r.foldl (stackStep E b) s = s := by
  induction r with
  | nil => rfl
  | cons o r ih => rw [List.foldl_cons, show stackStep E b s o = s by unfold stackStep; rw [if_pos h]]; exact ih

theorem fits_lib (E : StackEnv) (free : Nat) : E.fits libOnStack free = decide (E.frame + E.handler ≤ free) := by
  unfold StackEnv.fits libOnStack
  cases E.alt <;> rfl

theorem openSize_call (pre : List StackOp) (f j : Nat) : openSize j (pre ++ [StackOp.call f]).reverse = match j with | 0 => f + openSize 0 pre.reverse | j + 1 => openSize j pre.reverse := by
  rw [List.reverse_append]; cases j <;> rfl

theorem openSize_ret (pre : List StackOp) (j : Nat) : openSize j (pre ++ [StackOp.ret]).reverse = openSize (j + 1) pre.reverse := by
  rw [List.reverse_append]; cases j <;> rfl

/-- As long as nothing has happened the stack holds the functions that have not returned, and all messages have been sent. -/
theorem stack_inv (E : StackEnv) (b : Bool) (ops : List StackOp) (hl : ∀ o ∈ ops, ¬ lastOp o) (hr : allRoom E ops) :
    (∀ j, ((stackRun E b ops).frames.drop j).sum = openSize j ops.reverse) ∧ (stackRun E b ops).sent = ops.flatMap sends ∧ (stackRun E b ops).ended = none := by
  induction ops using List.reverseRecOn with
  | nil => refine ⟨fun j => ?_, rfl, rfl⟩; cases j <;> rfl
  | append_singleton pre o ih =>
    obtain ⟨i1, i2, i3⟩ := ih (fun o' ho' => hl o' (List.mem_append_left _ ho')) (fun p o' q h => hr p o' (q ++ [o]) (by rw [h]; simp))
    have hroom : hasRoom E pre o := hr pre o [] rfl
    have hsum : (stackRun E b pre).frames.sum = openSize 0 pre.reverse := by simpa using i1 0
    have ho : ¬ lastOp o := hl o (by simp)
    rw [stackRun_snoc]
    unfold stackStep
    rw [if_neg (by rw [i3]; simp)]
    cases o with
    | call f =>
      dsimp only
      rw [if_pos (by rw [hsum]; exact hroom (by simp))]
      refine ⟨fun j => ?_, by simpa [sends] using i2, i3⟩
      rw [openSize_call]
      cases j with
      | zero => simp [hsum]
      | succ j => simpa using i1 j
    | ret =>
      refine ⟨fun j => ?_, by simpa [sends] using i2, i3⟩
      rw [openSize_ret, ← i1 (j + 1)]
      dsimp only
      rw [List.drop_tail]
    | log m =>
      dsimp only
      rw [if_pos (by rw [hsum]; exact hroom (by simp))]
      refine ⟨fun j => ?_, by simp [i2, sends], i3⟩
      rw [List.reverse_append]
      simpa [openSize] using i1 j
    | fatal m => exact absurd trivial ho
    | crash n => exact absurd trivial ho

/-- **C125** (partial). A crash or a fatal statement is reported, together with everything logged before, if everything up to then had room on the stack and there is room for the handler, or for the fatal statement. -/
theorem C125_statement_partial (E : StackEnv) (ops : List StackOp) (o : StackOp) (post : List StackOp) (hl : ∀ o ∈ ops, ¬ lastOp o) (ho : lastOp o) (hr : allRoom E (ops ++ [o])) (l : List StackMsg)
    (h : stackLog (stackRun E libOnStack (ops ++ o :: post)) l) :
    (stackRun E libOnStack (ops ++ o :: post)).ended = some (.reported (endSignal o)) ∧ l = ops.flatMap sends ++ sends o := by
  obtain ⟨i1, i2, i3⟩ := stack_inv E libOnStack ops hl (fun p o' q hh => hr p o' (q ++ [o]) (by rw [hh]; simp))
  have hsum : (stackRun E libOnStack ops).frames.sum = openSize 0 ops.reverse := by simpa using i1 0
  have hroom : hasRoom E ops o := hr ops o [] rfl
  have key : ∃ u, u = stackRun E libOnStack (ops ++ o :: post) ∧ u.ended = some (.reported (endSignal o)) ∧ u.sent = ops.flatMap sends ++ sends o := by
    refine ⟨_, rfl, ?_⟩
    rw [stackRun_append, List.foldl_cons]
    have hs : (stackStep E libOnStack (stackRun E libOnStack ops) o).ended = some (.reported (endSignal o)) ∧
        (stackStep E libOnStack (stackRun E libOnStack ops) o).sent = ops.flatMap sends ++ sends o := by
      unfold stackStep
      rw [if_neg (by rw [i3]; simp)]
      cases o with
      | call f => exact ho.elim
      | ret => exact ho.elim
      | log m => exact ho.elim
      | fatal m =>
        dsimp only
        rw [if_pos (by rw [hsum]; exact hroom (by simp))]
        exact ⟨rfl, by simp [i2, sends]⟩
      | crash n =>
        have h1 : openSize 0 ops.reverse + (E.frame + E.handler) ≤ E.size := hroom (by simp)
        have hf : E.fits libOnStack (E.size - (stackRun E libOnStack ops).frames.sum) = true := by
          rw [fits_lib, hsum, decide_eq_true_eq]; omega
        simp [StackState.signal, hf, i2, sends, endSignal]
    rw [stack_stay _ _ _ _ (by rw [hs.1]; rfl)]
    exact hs
  obtain ⟨u, e, k1, k2⟩ := key
  rw [← e] at h ⊢
  refine ⟨k1, ?_⟩
  unfold stackLog at h
  rw [if_neg (by rw [k1]; simp)] at h
  rw [h, k2]

/-- **C125** (exact). If something has no room, the process is killed without a report at the first such operation, whether or not the thread has an alternate stack. Nothing that comes then is logged, and what has been sent before may be missing too, from any point on. -/
theorem C125_exact (E : StackEnv) (hk : 0 < E.frame + E.handler) (ops : List StackOp) (o : StackOp) (post : List StackOp) (hl : ∀ o ∈ ops, ¬ lastOp o) (hr : allRoom E ops) (ho : ¬ hasRoom E ops o) :
    (stackRun E libOnStack (ops ++ o :: post)).ended = some .silent ∧
      ∀ l, stackLog (stackRun E libOnStack (ops ++ o :: post)) l ↔ l <+: ops.flatMap sends := by
  obtain ⟨i1, i2, i3⟩ := stack_inv E libOnStack ops hl hr
  have hsum : (stackRun E libOnStack ops).frames.sum = openSize 0 ops.reverse := by simpa using i1 0
  have hno : o ≠ .ret ∧ ¬ openSize 0 ops.reverse + ownNeed E o ≤ E.size := by
    unfold hasRoom at ho; exact Classical.not_imp.mp ho
  have f0 : E.fits libOnStack 0 = false := by
    rw [fits_lib, decide_eq_false_iff_not]; omega
  have hs : stackStep E libOnStack (stackRun E libOnStack ops) o = { stackRun E libOnStack ops with ended := some .silent } := by
    unfold stackStep
    rw [if_neg (by rw [i3]; simp)]
    cases o with
    | call f => dsimp only; rw [if_neg (by rw [hsum]; exact hno.2)]; simp [StackState.signal, f0]
    | ret => exact absurd rfl hno.1
    | log m => dsimp only; rw [if_neg (by rw [hsum]; exact hno.2)]; simp [StackState.signal, f0]
    | fatal m => dsimp only; rw [if_neg (by rw [hsum]; exact hno.2)]; simp [StackState.signal, f0]
    | crash n =>
      have h1 : ¬ openSize 0 ops.reverse + (E.frame + E.handler) ≤ E.size := hno.2
      have hf : E.fits libOnStack (E.size - (stackRun E libOnStack ops).frames.sum) = false := by
        rw [fits_lib, hsum, decide_eq_false_iff_not]; omega
      simp [StackState.signal, hf]
  have hx : stackRun E libOnStack (ops ++ o :: post) = { stackRun E libOnStack ops with ended := some .silent } := by
    rw [stackRun_append, List.foldl_cons, hs, stack_stay _ _ _ _ rfl]
  rw [hx]
  refine ⟨rfl, fun l => ?_⟩
  unfold stackLog
  rw [if_pos rfl, ← i2]

/-- **C125** (goes on). A history that has room and does not end the process leaves it running, with everything sent in order. -/
theorem C125_runs (E : StackEnv) (ops : List StackOp) (hl : ∀ o ∈ ops, ¬ lastOp o) (hr : allRoom E ops) (l : List StackMsg) :
    (stackRun E libOnStack ops).ended = none ∧ (stackLog (stackRun E libOnStack ops) l ↔ l = ops.flatMap sends) := by
  obtain ⟨-, i2, i3⟩ := stack_inv E libOnStack ops hl hr
  refine ⟨i3, ?_⟩
  unfold stackLog
  rw [if_neg (by rw [i3]; simp), i2]

/-- **C125** (recursion). Recursion that does not end is never reported: for every sizes of functions that are positive, every size of the stack and every alternate stack the process is killed after finitely many calls, and none of the log statements in them need be in the log. -/
theorem C125_recursion (E : StackEnv) (hk : 0 < E.frame + E.handler) (f : Nat) (hf : 0 < f) (m : Str) :
    ∃ k, ∀ post, (stackRun E libOnStack ((List.replicate k [StackOp.call f, .log m]).flatten ++ post)).ended = some .silent ∧
      stackLog (stackRun E libOnStack ((List.replicate k [StackOp.call f, .log m]).flatten ++ post)) [] := by
  by_contra hc
  have hc : ∀ k, ∃ post, ¬ ((stackRun E libOnStack ((List.replicate k [StackOp.call f, .log m]).flatten ++ post)).ended = some .silent ∧
      stackLog (stackRun E libOnStack ((List.replicate k [StackOp.call f, .log m]).flatten ++ post)) []) := fun k => not_forall.mp (not_exists.mp hc k)
  have nolast : ∀ k, ∀ o ∈ (List.replicate k [StackOp.call f, .log m]).flatten, ¬ lastOp o := by
    intro k o ho
    obtain ⟨x, hx, hox⟩ := List.mem_flatten.mp ho
    rw [List.eq_of_mem_replicate hx] at hox
    simp only [List.mem_cons, List.not_mem_nil, or_false] at hox
    rcases hox with rfl | rfl <;> exact fun h => h
  have all : ∀ k, allRoom E (List.replicate k [StackOp.call f, .log m]).flatten := by
    intro k pre o post he
    by_contra hno
    -- take the shortest history without room
    obtain ⟨n, hn⟩ : ∃ n, pre.length = n := ⟨_, rfl⟩
    induction n using Nat.strongRecOn generalizing pre o post with
    | _ n ih =>
      by_cases hpre : allRoom E pre
      · obtain ⟨p2, hp⟩ := hc k
        apply hp
        have hl : ∀ o ∈ pre, ¬ lastOp o := fun o' ho' => nolast k o' (by rw [he]; exact List.mem_append_left _ ho')
        have := C125_exact E hk pre o (post ++ p2) hl hpre hno
        rw [he, List.append_assoc, List.cons_append]
        exact ⟨this.1, (this.2 []).mpr (List.nil_prefix)⟩
      · have : ∃ p o' q, pre = p ++ o' :: q ∧ ¬ hasRoom E p o' := by
          unfold allRoom at hpre
          obtain ⟨p, hp⟩ := not_forall.mp hpre
          obtain ⟨o', hp⟩ := not_forall.mp hp
          obtain ⟨q, hp⟩ := not_forall.mp hp
          obtain ⟨h1, h2⟩ := Classical.not_imp.mp hp
          exact ⟨p, o', q, h1, h2⟩
        obtain ⟨p, o', q, h1, h2⟩ := this
        exact ih p.length (by rw [← hn, h1]; simp) p o' (q ++ o :: post) (by rw [he, h1]; simp) h2 rfl
  have size : ∀ k, openSize 0 (List.replicate k [StackOp.call f, .log m]).flatten.reverse = k * f := by
    intro k
    induction k with
    | zero => simp [openSize]
    | succ k ih =>
      rw [List.replicate_succ', List.flatten_append, List.reverse_append]
      show openSize 0 (StackOp.log m :: StackOp.call f :: (List.replicate k [StackOp.call f, .log m]).flatten.reverse) = _
      simp only [openSize, ih]
      rw [Nat.succ_mul]; omega
  have h1 := all (E.size + 1 + 1) (List.replicate (E.size + 1) [StackOp.call f, .log m]).flatten (.call f) [.log m] (by
    rw [List.replicate_succ' (n := E.size + 1), List.flatten_append]; simp)
  have h2 := h1 (by simp)
  rw [size] at h2
  have : E.size + 1 ≤ (E.size + 1) * f := Nat.le_mul_of_pos_right _ hf
  simp only [ownNeed] at h2
  omega

/-- **C125** (alternate stack). It makes no difference at all whether the program has given its threads alternate stacks, as it is advised to for crashes by stack overflow. -/
theorem C125_altstack (E : StackEnv) (a : Option Nat) (ops : List StackOp) : stackRun { E with alt := a } libOnStack ops = stackRun E libOnStack ops := by
  have : stackStep { E with alt := a } libOnStack = stackStep E libOnStack := by
    funext s o
    cases o <;> rfl
  unfold stackRun
  rw [this]

/-- **C125** (the cause). If the handler were installed with SA_ONSTACK, every crash of a thread with a large enough alternate stack would be reported, overflows of the stack included, and nothing would be lost. -/
theorem C125_onstack (E : StackEnv) (a : Nat) (ha : E.alt = some a) (hfit : E.frame + E.handler ≤ a) (ops : List StackOp) (l : List StackMsg) :
    (stackRun E true ops).ended ≠ some .silent ∧ (stackLog (stackRun E true ops) l → l = (stackRun E true ops).sent) := by
  have f : ∀ free, E.fits true free = true := by intro free; simp [StackEnv.fits, ha, hfit]
  have ns : (stackRun E true ops).ended ≠ some .silent := by
    induction ops using List.reverseRecOn with
    | nil => simp [stackRun]
    | append_singleton pre o ih =>
      rw [stackRun_snoc]
      unfold stackStep
      split
      · exact ih
      · cases o with
        | call g => dsimp only; split; exact ih; simp [StackState.signal, f]
        | ret => exact ih
        | log m => dsimp only; split; exact ih; simp [StackState.signal, f]
        | fatal m => dsimp only; split; simp; simp [StackState.signal, f]
        | crash n => simp [StackState.signal, f]
  refine ⟨ns, fun h => ?_⟩
  unfold stackLog at h
  rwa [if_neg ns] at h

/-- **C125** (the cause, overflow). With SA_ONSTACK and an alternate stack whatever does not fit is reported: a crash as itself, a call or statement as SIGSEGV. -/
theorem C125_onstack_overflow (E : StackEnv) (a : Nat) (ha : E.alt = some a) (hfit : E.frame + E.handler ≤ a) (ops : List StackOp) (o : StackOp) (post : List StackOp) (hl : ∀ o ∈ ops, ¬ lastOp o)
    (hr : allRoom E ops) (ho : ¬ hasRoom E ops o) :
    (stackRun E true (ops ++ o :: post)).ended = some (.reported (overflowSignal o)) ∧ (stackRun E true (ops ++ o :: post)).sent = ops.flatMap sends ++ [.signal (overflowSignal o)] := by
  obtain ⟨i1, i2, i3⟩ := stack_inv E true ops hl hr
  have hsum : (stackRun E true ops).frames.sum = openSize 0 ops.reverse := by simpa using i1 0
  obtain ⟨hne, hno⟩ := Classical.not_imp.mp (show ¬ (_ → _) from ho)
  have hfit' : ∀ k, E.fits true k = true := by intro k; simp [StackEnv.fits, ha, hfit]
  have hs : stackStep E true (stackRun E true ops) o =
      { stackRun E true ops with sent := (stackRun E true ops).sent ++ [.signal (overflowSignal o)], ended := some (.reported (overflowSignal o)) } := by
    unfold stackStep
    rw [if_neg (by rw [i3]; simp)]
    cases o with
    | call f => dsimp only; rw [if_neg (by rw [hsum]; exact hno)]; simp [StackState.signal, hfit', overflowSignal]
    | ret => exact absurd rfl hne
    | log m => dsimp only; rw [if_neg (by rw [hsum]; exact hno)]; simp [StackState.signal, hfit', overflowSignal]
    | fatal m => dsimp only; rw [if_neg (by rw [hsum]; exact hno)]; simp [StackState.signal, hfit', overflowSignal]
    | crash n => simp [StackState.signal, hfit', overflowSignal]
  rw [stackRun_append, List.foldl_cons, hs, stack_stay _ _ _ _ rfl]
  exact ⟨rfl, by rw [i2]⟩

/-- **C125** (larger stacks). More stack never hurts: what has room has room on a larger stack. -/
theorem C125_larger (E : StackEnv) (N : Nat) (hN : E.size ≤ N) (ops : List StackOp) (h : allRoom E ops) : allRoom { E with size := N } ops := by
  intro pre o post he hne
  have h1 := h pre o post he hne
  have h2 : ownNeed { E with size := N } o = ownNeed E o := by cases o <;> rfl
  rw [h2]
  exact Nat.le_trans h1 hN

/-- **C125** (negation). It is not the case that every crash is reported: with room for the function but not for the handler, SIGSEGV and SIGABRT are silent, and the messages logged before may be lost. -/
theorem C125_negation : ¬ ∀ (E : StackEnv) (ops : List StackOp) (o : StackOp), (∀ o ∈ ops, ¬ lastOp o) → allRoom E ops → lastOp o → ∀ l, stackLog (stackRun E libOnStack (ops ++ [o])) l →
    ops.flatMap sends ++ sends o = l := by
  intro H
  have E : allRoom ⟨100, 20, 50, 10, 30, some 1000⟩ [.log ['a'], .call 60] := by
    intro pre o post he hne
    match pre, he with
    | [], he => cases he; decide
    | [x], he => cases he; decide
    | x :: y :: z, he => simp at he
  have h := H ⟨100, 20, 50, 10, 30, some 1000⟩ [.log ['a'], .call 60] (.crash 11) (by intro o ho; simp only [List.mem_cons, List.not_mem_nil, or_false] at ho; rcases ho with rfl | rfl <;> exact fun h => h) E trivial []
  have := h (by unfold stackLog; decide)
  exact absurd this (by decide)

/-! ### Examples -/

/-- For `C125_statement_partial`: two nested calls, one of which returns, a log statement and a crash that is reported. -/
example : stackRun ⟨100, 20, 50, 10, 30, none⟩ libOnStack [.call 20, .call 60, .log ['a'], .ret, .crash 8] = ⟨[20], [.text ['a'], .signal 8], some (.reported 8)⟩ := by decide

/-- For `C125_exact`: the same without the return. -/
example : stackRun ⟨100, 20, 50, 10, 30, some 4096⟩ libOnStack [.call 20, .call 60, .log ['a'], .crash 8] = ⟨[60, 20], [.text ['a']], some .silent⟩ := by decide

/-- The hypotheses of both. -/
example : allRoom ⟨100, 20, 50, 10, 30, none⟩ [.call 20, .crash 8] ∧ ¬ hasRoom ⟨100, 20, 50, 10, 30, none⟩ [.call 20, .call 60] (.crash 8) := by
  constructor
  · intro pre o post he _
    match pre, he with
    | [], he => cases he; decide
    | [x], he => cases he; decide
    | x :: y :: z, he => simp at he
  · intro h
    exact absurd (h (by simp)) (by decide)

/-- For `C125_onstack_overflow`. -/
example : stackRun ⟨100, 20, 50, 10, 30, some 4096⟩ true [.log ['a'], .call 60, .call 60] = ⟨[60], [.text ['a'], .signal 11], some (.reported 11)⟩ := by decide

end G3.Props
