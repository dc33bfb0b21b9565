import Verif.Props.Visibility
/- C88: what a thread does after the destructor of an object that it destroys. -/
namespace G3.Props
open G3 G3.Spec

/-- Something that a thread does outside the member functions of a queue. -/
def OutsideQueue : MemEv → Prop
  | .send _ _ => True
  | .work _ _ => True
  | .set _ _ => True
  | .got _ _ => True
  | .dtor _ => True
  | .ended => True
  | _ => False

structure VNest (n : Nat) (s : VState) : Prop where
  inside : ∀ (a g k : Nat), s.tr[a]? = some (g, .dtor k) → k < n ∧ ((∃ b : Nat, a < b ∧ s.tr[b]? = some (g, .destroy k)) ∨ (s.act k).dtor = .inside (swp k g))
  nested : ∀ (a c g k : Nat) e, a < c → s.tr[a]? = some (g, .dtor k) → s.tr[c]? = some (g, e) → OutsideQueue e →
    ∃ b : Nat, a < b ∧ b < c ∧ s.tr[b]? = some (g, .destroy k)

theorem vFree_inside {n : Nat} {s : VState} {g k : Nat} (hk : k < n) (h : vFree n s g = true) : (s.act k).dtor ≠ .inside (swp k g) := by
  unfold vFree at h
  rw [List.all_eq_true] at h
  have := h k (List.mem_range.2 hk)
  rw [Bool.and_eq_true] at this
  exact of_decide_eq_true this.2

theorem vMay_free {n : Nat} {s : VState} {g : Nat} (h : vMay n s g = true) : vFree n s g = true := by
  unfold vMay at h
  rw [Bool.and_eq_true] at h
  exact h.1

/-- A step whose events outside queues are those of free threads. -/
theorem VNest_step {n : Nat} {s s' : VState} {ev : List (Nat × MemEv)} (h : VNest n s) (htr : s'.tr = s.tr ++ ev)
    (hev : ∀ x ∈ ev, OutsideQueue x.2 → vFree n s x.1 = true) (hone : ∀ (i j g k : Nat) e, ev[i]? = some (g, .dtor k) → ev[j]? = some (g, e) → ¬ i < j)
    (hin : ∀ g k, (s.act k).dtor = .inside (swp k g) → (s'.act k).dtor = .inside (swp k g) ∨ (g, .destroy k) ∈ ev)
    (hnew : ∀ g k, (g, .dtor k) ∈ ev → k < n ∧ (s'.act k).dtor = .inside (swp k g)) : VNest n s' := by
  refine ⟨?_, ?_⟩
  · intro a g k ha
    rw [htr] at ha ⊢
    rcases get_app ha with ha | ⟨hle, ha⟩
    · obtain ⟨hk, hb⟩ := h.inside a g k ha
      refine ⟨hk, ?_⟩
      rcases hb with ⟨b, h1, h2⟩ | hb
      · exact Or.inl ⟨b, h1, get_ext ev h2⟩
      · rcases hin g k hb with h1 | h1
        · exact Or.inr h1
        · left
          obtain ⟨i, hi⟩ := List.getElem?_of_mem h1
          have := (List.getElem?_eq_some_iff.mp ha).1
          refine ⟨s.tr.length + i, by omega, ?_⟩
          rw [List.getElem?_append_right (by omega), Nat.add_sub_cancel_left]
          exact hi
    · have := hnew g k (List.mem_of_getElem? ha)
      exact ⟨this.1, Or.inr this.2⟩
  · intro a c g k e hac ha hc he
    rw [htr] at ha hc ⊢
    rcases get_app hc with hc | ⟨hle, hc⟩
    · rcases get_app ha with ha | ⟨hle', _⟩
      · obtain ⟨b, h1, h2, h3⟩ := h.nested a c g k e hac ha hc he
        exact ⟨b, h1, h2, get_ext ev h3⟩
      · have := (List.getElem?_eq_some_iff.mp hc).1; omega
    · rcases get_app ha with ha | ⟨hle', ha⟩
      · obtain ⟨hk, hb⟩ := h.inside a g k ha
        rcases hb with ⟨b, h1, h2⟩ | hb
        · have := (List.getElem?_eq_some_iff.mp h2).1
          exact ⟨b, h1, by omega, get_ext ev h2⟩
        · exact absurd hb (vFree_inside hk (hev _ (List.mem_of_getElem? hc) he))
      · exact absurd (by omega) (hone _ _ _ _ _ ha hc)

theorem dtor_same {c c' : CState} {l : CLabel} (h : cStep c l = some c') (h1 : ∀ d, l ≠ .dtorSend d) (h2 : l ≠ .join) : c'.dtor = c.dtor := by
  cases l with
  | dtorSend d => exact absurd rfl (h1 d)
  | join => exact absurd rfl h2
  | mem q =>
    cases q <;> simp only [cStep] at h <;> first | (cases h) | (split at h <;> first | cases h | (obtain ⟨q, _, rfl⟩ := Option.map_eq_some_iff.1 h; rfl))
  | _ =>
    simp only [cStep] at h
    (repeat' (split at h)) <;> first | (cases h; rfl) | (cases h) | (obtain ⟨q, _, rfl⟩ := Option.map_eq_some_iff.1 h; rfl)

theorem short {ev : List (Nat × MemEv)} {x : Nat × MemEv} (h : ev = [x] ∨ ∀ y ∈ ev, ∀ k, y.2 ≠ .dtor k) :
    ∀ (i j g k : Nat) e, ev[i]? = some (g, .dtor k) → ev[j]? = some (g, e) → ¬ i < j := by
  intro i j g k e hi hj hij
  rcases h with rfl | h
  · have h1 := (List.getElem?_eq_some_iff.mp hj).1
    simp at h1
    omega
  · exact h _ (List.mem_of_getElem? hi) k rfl

theorem vStep_nest {n : Nat} {s s' : VState} {l : VLabel} (h : VNest n s) (hs : vStep n s l = some s') : VNest n s' := by
  have plain : ∀ (x : Nat × MemEv), s'.act = s.act ∨ (∃ g, n ≤ g ∧ s'.act = fun j => if j = g then { s.act g with exited := true } else s.act j) → s'.tr = s.tr ++ [x] →
      (∀ k, x.2 ≠ .dtor k) → vFree n s x.1 = true → VNest n s' := by
    intro x ha ht hx hf
    refine VNest_step h ht (by intro y hy _; rw [List.mem_singleton.1 hy]; exact hf) (short (Or.inl rfl)) ?_ ?_
    · intro g k hi
      left
      rcases ha with ha | ⟨g', hg', ha⟩ <;> rw [ha]
      · exact hi
      · simp only
        split
        · next e => subst e; exact hi
        · exact hi
    · intro g k hm
      exact absurd (by rw [← List.mem_singleton.1 hm]) (hx k)
  cases l with
  | work k =>
    simp only [vStep] at hs
    split at hs
    · split at hs
      · next hc => cases hs; exact plain _ (Or.inl rfl) rfl (by simp) hc.2
      · cases hs
    · cases hs
  | get g k i =>
    simp only [vStep] at hs
    split at hs
    · next hc => cases hs; exact plain _ (Or.inl rfl) rfl (by simp) (vMay_free hc.2.2)
    · cases hs
  | stop g =>
    simp only [vStep] at hs
    split at hs
    · next hc => cases hs; exact plain _ (Or.inr ⟨g, hc.1, rfl⟩) rfl (by simp) (vMay_free hc.2)
    · cases hs
  | wait d g =>
    simp only [vStep] at hs
    split at hs
    · next hc => cases hs; exact plain _ (Or.inl rfl) rfl (by simp) (vMay_free hc.2.2)
    · cases hs
  | act k l =>
    simp only [vStep] at hs
    split at hs
    swap
    · cases hs
    next hc =>
    obtain ⟨hk, hc⟩ := hc
    obtain ⟨c, hcs, rfl⟩ := Option.map_eq_some_iff.1 hs
    have keep : c.dtor = (s.act k).dtor → ∀ g j, (s.act j).dtor = .inside (swp j g) → (if j = k then c else s.act j).dtor = .inside (swp j g) ∨ (g, MemEv.destroy j) ∈ memEvents k (s.act k) l := by
      intro e g j hj
      left
      split
      · next e' => subst e'; rw [e]; exact hj
      · exact hj
    have free : ∀ x ∈ memEvents k (s.act k) l, OutsideQueue x.2 → vFree n s x.1 = true := by
      intro x hx ho
      cases l with
      | send t i => rcases List.mem_singleton.1 hx with rfl; exact vMay_free hc
      | dtorSend t => rcases List.mem_singleton.1 hx with rfl; exact vMay_free hc
      | enter => rcases List.mem_singleton.1 hx with rfl; exact ho.elim
      | finish =>
        simp only [memEvents] at hx
        split at hx
        · rcases List.mem_singleton.1 hx with rfl; exact hc
        · rcases List.mem_singleton.1 hx with rfl; exact ho.elim
        · cases hx
      | leave =>
        simp only [memEvents, List.mem_cons, List.not_mem_nil, or_false] at hx
        rcases hx with rfl | rfl
        · exact ho.elim
        · exact hc
      | join =>
        simp only [memEvents] at hx
        split at hx
        · simp only [List.mem_cons, List.not_mem_nil, or_false] at hx
          rcases hx with rfl | rfl <;> exact ho.elim
        · cases hx
      | mem q =>
        exfalso
        cases q <;> simp only [memEvents] at hx <;> (repeat' (split at hx)) <;> simp at hx
        all_goals (first | (rcases hx with rfl | rfl) | rcases hx with rfl) <;> exact ho
    have nod : (∀ d, l ≠ .dtorSend d) → ∀ y ∈ memEvents k (s.act k) l, ∀ j, y.2 ≠ .dtor j := by
      intro hd y hy j
      cases l with
      | dtorSend t => exact absurd rfl (hd t)
      | send t i => rcases List.mem_singleton.1 hy with rfl; simp
      | enter => rcases List.mem_singleton.1 hy with rfl; simp
      | mem q =>
        cases q <;> simp only [memEvents] at hy <;> (repeat' (split at hy)) <;> simp at hy
        all_goals (first | (rcases hy with rfl | rfl) | rcases hy with rfl) <;> simp
      | _ =>
        simp only [memEvents] at hy
        (repeat' (split at hy)) <;> simp at hy
        all_goals (first | (rcases hy with rfl | rfl) | rcases hy with rfl) <;> simp
    by_cases hd : ∃ d, l = .dtorSend d
    · obtain ⟨d, rfl⟩ := hd
      simp only [cStep] at hcs
      split at hcs
      swap
      · cases hcs
      next hcond =>
      obtain ⟨q, _, rfl⟩ := Option.map_eq_some_iff.1 hcs
      refine VNest_step h rfl free (short (Or.inl rfl)) ?_ ?_
      · intro g j hj
        left
        show (if j = k then _ else s.act j : CState).dtor = _
        split
        · next e => subst e; rw [hcond.1] at hj; cases hj
        · exact hj
      · intro g j hm
        have := List.mem_singleton.1 hm
        injection this with e1 e2
        injection e2 with e2
        subst e1 e2
        refine ⟨hk, ?_⟩
        show (if j = j then _ else _ : CState).dtor = _
        rw [if_pos rfl, swp_swp]
    · have hd' : ∀ d, l ≠ .dtorSend d := fun d e => hd ⟨d, e⟩
      refine VNest_step h rfl free (short (x := (0, .ended)) (Or.inr (nod hd'))) ?_ (fun g j hm => absurd rfl (nod hd' _ hm j))
      by_cases hj : l = .join
      · subst hj
        intro g j hi
        by_cases e : j = k
        · subst e
          right
          simp [memEvents, hi, swp_swp]
        · left
          show (if j = k then _ else s.act j : CState).dtor = _
          rw [if_neg e]; exact hi
      · exact keep (dtor_same hcs hd' hj)

theorem vRun_nest {n m : Nat} {ls : List VLabel} {s : VState} (h : vRun n (.start m) ls = some s) : VNest n s := by
  induction ls using List.reverseRecOn generalizing s with
  | nil =>
    simp only [vRun, Option.some.injEq] at h; subst h
    refine ⟨?_, ?_⟩ <;> simp [VState.start]
  | append_singleton ls l ih =>
    rw [vRun_snoc] at h
    cases hr : vRun n (.start m) ls with
    | none => rw [hr] at h; cases h
    | some s1 => rw [hr, Option.bind_some] at h; exact vStep_nest (ih hr) h

/-- C88: a destructor does not return early: whatever the thread that destroys an object does after the call of its destructor (send, continue or end its
own task, wait for a result, destroy another object, end) it does after the object's thread has been joined and the object has been destroyed. -/
theorem C88_destroyed_first {n m : Nat} {ls : List VLabel} {s : VState} (h : vRun n (.start m) ls = some s) {a c g k : Nat} {e : MemEv} (hac : a < c)
    (ha : s.tr[a]? = some (g, .dtor k)) (hc : s.tr[c]? = some (g, e)) (he : OutsideQueue e) :
    ∃ b : Nat, a < b ∧ b < c ∧ s.tr[b]? = some (g, .destroy k) := (vRun_nest h).nested a c g k e hac ha hc he

/-- C88: when `removeSink` or `removeAllSinks` has returned: if the task whose future is read destroyed an object, everything that the thread of this object
ever did is visible to the caller. -/
theorem C88_removed {n m : Nat} {ls : List VLabel} {s : VState} (h : vRun n (.start m) ls = some s) {a c d g k k' i : Nat} (hac : a < c)
    (ha : s.tr[a]? = some (k, .dtor k')) (hc : s.tr[c]? = some (k, .set k i)) (honce : ∀ (c' t' : Nat), s.tr[c']? = some (t', .set k i) → c' = c)
    (hd : s.tr[d]? = some (g, .got k i)) : ∀ (b : Nat) e, s.tr[b]? = some (k', e) → HB s.tr b d := by
  obtain ⟨b, hab, hbc, hb⟩ := C88_destroyed_first h hac ha hc trivial
  obtain ⟨c', hc', h1, _⟩ := C88_future h hd
  have e := honce c' k hc'
  subst e
  intro x e hx
  exact .trans ((C88_destructor h hb).1 x e hx) (h1 b _ hb (Nat.le_of_lt hbc))

/-- The hypotheses can be met: thread 2 has object 0 destroy object 1 in a task, as `removeSink` does, and waits for the result. -/
example : ∃ ls s, vRun 2 (.start 3) ls = some s ∧ s.tr[(9 : Nat)]? = some (0, .dtor 1) ∧ s.tr[(22 : Nat)]? = some (0, .destroy 1) ∧ s.tr[(23 : Nat)]? = some (0, .set 0 5) ∧
    s.tr[(24 : Nat)]? = some (2, .got 0 5) ∧ s.tr[(20 : Nat)]? = some (1, .ended) ∧ s.tr.length = 25 := by
  refine ⟨[.act 0 (.send 2 5), .act 0 (.mem (.lock 2)), .act 0 (.mem (.act 2)), .act 0 (.mem (.unlock 2)), .act 0 (.mem (.notify 2 none)),
    .act 0 .enter, .act 0 (.mem (.lock 0)), .act 0 (.mem (.act 0)), .act 0 (.mem (.unlock 0)),
    .act 1 (.dtorSend 1), .act 1 (.mem (.lock 1)), .act 1 (.mem (.act 1)), .act 1 (.mem (.unlock 1)), .act 1 (.mem (.notify 1 none)),
    .act 1 .enter, .act 1 (.mem (.lock 0)), .act 1 (.mem (.act 0)), .act 1 (.mem (.unlock 0)), .act 1 .finish, .act 1 .leave, .act 1 .join,
    .act 0 .finish, .get 2 0 5], _, rfl, ?_⟩
  decide +kernel

end G3.Props
