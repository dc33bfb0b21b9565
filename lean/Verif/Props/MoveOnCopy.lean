import Verif.Model.MoveOnCopy
import Mathlib.Data.List.Basic
import Mathlib.Data.List.Perm.Basic
/-
Properties of move-on-copy wrappers: C19.
-/
namespace G3.Props
open G3
variable {P : Type}

/-- The payloads owned by live wrappers. -/
def owned (s : MocState P) : List P := s.cells.filterMap Option.join

/-- The payloads put in. -/
def made : List (MOp P) → List P
  | [] => []
  | .make p :: os => p :: made os
  | _ :: os => made os

theorem at_some {s : MocState P} {i : Nat} {v : Option P} (h : s.at i = some v) :
    ∃ a b, s.cells = a ++ some v :: b ∧ a.length = i := by
  unfold MocState.at at h
  cases hc : s.cells[i]? with
  | none => rw [hc] at h; cases h
  | some x =>
    rw [hc] at h
    have hx : x = some v := h
    subst hx
    obtain ⟨hlt, he⟩ := List.getElem?_eq_some_iff.1 hc
    refine ⟨s.cells.take i, s.cells.drop (i + 1), ?_, by rw [List.length_take]; omega⟩
    rw [← he, List.getElem_cons_drop, List.take_append_drop]

theorem set_mid {α : Type} (a b : List α) (x y : α) : (a ++ x :: b).set a.length y = a ++ y :: b := by simp

theorem fm_mid (a b : List (Option (Option P))) (v : Option P) :
    (a ++ some v :: b).filterMap Option.join = a.filterMap Option.join ++ (v.toList ++ b.filterMap Option.join) := by
  cases v <;> simp

/-- Each step keeps every payload in exactly one place. -/
theorem step_perm (s s' : MocState P) (o : MOp P) (h : s.step o = some s') :
    (owned s' ++ s'.out ++ s'.gone).Perm (made [o] ++ (owned s ++ s.out ++ s.gone)) := by
  have tr : ∀ i, s.transfer i = some s' → (owned s' ++ s'.out ++ s'.gone).Perm (owned s ++ s.out ++ s.gone) := by
    intro i h
    unfold MocState.transfer at h
    cases hv : s.at i with
    | none => rw [hv] at h; cases h
    | some v =>
      rw [hv] at h
      cases h
      obtain ⟨a, b, hc, rfl⟩ := at_some hv
      refine List.Perm.append_right _ (List.Perm.append_right _ ?_)
      unfold owned
      simp only [hc, set_mid]
      rw [List.filterMap_append, fm_mid, fm_mid]
      have : ([some v] : List (Option (Option P))).filterMap Option.join = v.toList := by cases v <;> rfl
      rw [this]
      simp only [Option.toList_none, List.nil_append, List.append_assoc]
      exact List.Perm.append_left _ List.perm_append_comm
  have asg : ∀ i j, s.assign i j = some s' → (owned s' ++ s'.out ++ s'.gone).Perm (owned s ++ s.out ++ s.gone) := by
    intro i j h
    unfold MocState.assign at h
    cases hi : s.at i with
    | none => rw [hi] at h; cases h
    | some old =>
      cases hj : s.at j with
      | none => rw [hi, hj] at h; cases h
      | some v =>
        rw [hi, hj] at h
        simp only at h
        split at h
        · cases h; exact List.Perm.refl _
        · next hne =>
          cases h
          obtain ⟨a, b, hc, rfl⟩ := at_some hi
          -- first empty the source, then overwrite the target
          have hj' : (a ++ some old :: b)[j]? = some (some v) := by
            unfold MocState.at at hj; rw [hc] at hj
            cases hx : (a ++ some old :: b)[j]? with
            | none => rw [hx] at hj; cases hj
            | some x => rw [hx] at hj; cases x with
              | none => cases hj
              | some y => simp at hj; rw [hj]
          have key : (((a ++ some old :: b).set j (some none)).set a.length (some v)).filterMap Option.join ++ old.toList
              |>.Perm ((a ++ some old :: b).filterMap Option.join) := by
            rcases Nat.lt_or_gt_of_ne (fun e => hne e.symm : j ≠ a.length) with hlt | hgt
            · obtain ⟨hl, he⟩ := List.getElem?_eq_some_iff.1 (by rwa [List.getElem?_append_left hlt] at hj' : a[j]? = some (some v))
              have ha : a = a.take j ++ some v :: a.drop (j + 1) := by
                rw [← he, List.getElem_cons_drop, List.take_append_drop]
              have hlen : (a.take j).length = j := by rw [List.length_take]; omega
              generalize a.take j = a1 at *
              generalize a.drop (j + 1) = a2 at *
              subst ha
              subst hlen
              have e1 : ((a1 ++ some v :: a2) ++ some old :: b).set a1.length (some none) = (a1 ++ some none :: a2) ++ some old :: b := by
                simp
              have e2 : ((a1 ++ some none :: a2) ++ some old :: b).set (a1 ++ some v :: a2).length (some v) =
                  (a1 ++ some none :: a2) ++ some v :: b := by
                have : (a1 ++ some v :: a2).length = (a1 ++ (some none : Option (Option P)) :: a2).length := by simp
                rw [this, set_mid]
              rw [e1, e2, fm_mid, fm_mid, fm_mid, fm_mid]
              simp only [Option.toList_none, List.nil_append, List.append_assoc]
              refine List.Perm.append_left _ ?_
              -- a2 ++ v ++ b ++ old ~ v ++ a2 ++ old ++ b
              refine (List.Perm.append_left _ (List.Perm.append_left _ List.perm_append_comm)).trans ?_
              rw [← List.append_assoc, ← List.append_assoc, ← List.append_assoc, ← List.append_assoc]
              exact List.Perm.append_right _ (List.Perm.append_right _ List.perm_append_comm)
            · rw [List.getElem?_append_right (by omega)] at hj'
              obtain ⟨k, hk⟩ : ∃ k, j = a.length + (k + 1) := ⟨j - a.length - 1, by omega⟩
              subst hk
              have hb : b[k]? = some (some v) := by
                have : a.length + (k + 1) - a.length = k + 1 := by omega
                rw [this] at hj'; simpa using hj'
              obtain ⟨hl, he⟩ := List.getElem?_eq_some_iff.1 hb
              have hbb : b = b.take k ++ some v :: b.drop (k + 1) := by
                rw [← he, List.getElem_cons_drop, List.take_append_drop]
              have hlen : (b.take k).length = k := by rw [List.length_take]; omega
              generalize b.take k = b1 at *
              generalize b.drop (k + 1) = b2 at *
              subst hbb
              subst hlen
              have e1 : (a ++ some old :: (b1 ++ some v :: b2)).set (a.length + (b1.length + 1)) (some none) =
                  a ++ some old :: (b1 ++ some none :: b2) := by
                simp
              rw [e1, set_mid, fm_mid, fm_mid, fm_mid, fm_mid]
              simp only [Option.toList_none, List.nil_append, List.append_assoc]
              refine List.Perm.append_left _ ?_
              -- v ++ b1 ++ b2 ++ old ~ old ++ b1 ++ v ++ b2
              refine List.Perm.trans (l₂ := old.toList ++ (v.toList ++ (List.filterMap Option.join b1 ++ List.filterMap Option.join b2))) ?_ ?_
              · rw [← List.append_assoc, ← List.append_assoc]
                refine List.perm_append_comm.trans ?_
                simp only [List.append_assoc]
                exact List.Perm.refl _
              · refine List.Perm.append_left _ ?_
                rw [← List.append_assoc, ← List.append_assoc]
                exact List.Perm.append_right _ List.perm_append_comm
          unfold owned
          simp only [hc]
          have k2 : ∀ X Y O G : List P, (X ++ old.toList).Perm Y → (X ++ O ++ (G ++ old.toList)).Perm (Y ++ O ++ G) := by
            intro X Y O G hp
            refine List.Perm.trans ?_ (List.Perm.append_right _ (List.Perm.append_right _ hp))
            simp only [List.append_assoc]
            refine List.Perm.append_left _ ?_
            rw [← List.append_assoc]
            exact List.perm_append_comm
          exact k2 _ _ _ _ key
  cases o with
  | make p =>
    cases h
    unfold owned made
    simp only [made]
    rw [List.filterMap_append]
    have : ([some (some p)] : List (Option (Option P))).filterMap Option.join = [p] := rfl
    rw [this]
    simp only [List.append_assoc]
    exact List.perm_middle
  | copy i => exact tr i h
  | move i => exact tr i h
  | copyAssign i j => exact asg i j h
  | moveAssign i j => exact asg i j h
  | get i =>
    simp only [MocState.step] at h
    cases hv : s.at i with
    | none => rw [hv] at h; cases h
    | some v => rw [hv] at h; cases h; exact List.Perm.refl _
  | release i =>
    simp only [MocState.step] at h
    cases hv : s.at i with
    | none => rw [hv] at h; cases h
    | some v =>
      rw [hv] at h
      cases h
      obtain ⟨a, b, hc, rfl⟩ := at_some hv
      unfold owned
      simp only [hc, set_mid, fm_mid, made, Option.toList_none, List.nil_append, List.append_assoc]
      refine List.Perm.append_left _ ?_
      have k3 : ∀ B O V G : List P, (B ++ (O ++ (V ++ G))).Perm (V ++ (B ++ (O ++ G))) := by
        intro B O V G
        rw [← List.append_assoc, ← List.append_assoc]
        refine (List.Perm.append_right G List.perm_append_comm).trans ?_
        simp only [List.append_assoc]
        exact List.Perm.refl _
      exact k3 _ _ _ _
  | destroy i =>
    simp only [MocState.step] at h
    cases hv : s.at i with
    | none => rw [hv] at h; cases h
    | some v =>
      rw [hv] at h
      cases h
      obtain ⟨a, b, hc, rfl⟩ := at_some hv
      unfold owned
      have hd : (a ++ none :: b).filterMap Option.join = a.filterMap Option.join ++ b.filterMap (Option.join (α := P)) := by simp
      simp only [hc, set_mid, fm_mid, hd, made, List.nil_append, List.append_assoc]
      refine List.Perm.append_left _ ?_
      rw [← List.append_assoc, ← List.append_assoc]
      refine List.perm_append_comm.trans ?_
      simp only [List.append_assoc]
      exact List.Perm.refl _

/-- C19: after any sequence of operations every payload ever put in is in exactly one place: owned by one live wrapper, handed
out, or dropped with its (overwritten or destroyed) owner. -/
theorem C19_conservation (os : List (MOp P)) (s : MocState P) (h : MocState.start.run os = some s) :
    (owned s ++ s.out ++ s.gone).Perm (made os) := by
  have run : ∀ (os : List (MOp P)) (s s' : MocState P), s.run os = some s' →
      (owned s' ++ s'.out ++ s'.gone).Perm (made os ++ (owned s ++ s.out ++ s.gone)) := by
    intro os
    induction os with
    | nil => intro s s' h; cases h; exact List.Perm.refl _
    | cons o os ih =>
      intro s s' h
      simp only [MocState.run] at h
      cases ho : s.step o with
      | none => rw [ho] at h; cases h
      | some u =>
        rw [ho] at h
        refine (ih u s' h).trans ?_
        have h1 := step_perm s u o ho
        have hm : made (o :: os) = made [o] ++ made os := by cases o <;> rfl
        rw [hm]
        refine (List.Perm.append_left _ h1).trans ?_
        rw [← List.append_assoc]
        exact List.Perm.append_right _ List.perm_append_comm
  simpa [owned, MocState.start] using run os MocState.start s h

/-- C19: with distinct payloads, no two live wrappers own the same one, and one that was handed out or dropped has no owner. -/
theorem C19_single_owner (os : List (MOp P)) (s : MocState P) (h : MocState.start.run os = some s) (hd : (made os).Nodup) :
    (∀ i j p, s.at i = some (some p) → s.at j = some (some p) → i = j) ∧
    (∀ i p, s.at i = some (some p) → p ∉ s.out ∧ p ∉ s.gone) := by
  have hn : (owned s ++ s.out ++ s.gone).Nodup := (C19_conservation os s h).nodup_iff.2 hd
  rw [List.append_assoc] at hn
  have hn1 : (owned s).Nodup := (List.nodup_append.1 hn).1
  constructor
  · intro i j p hi hj
    by_contra hne
    -- order the two
    have key : ∀ i j, i < j → s.at i = some (some p) → s.at j = some (some p) → False := by
      intro i j hlt hi hj
      obtain ⟨a, b, hc, rfl⟩ := at_some hi
      unfold MocState.at at hj
      rw [hc] at hj
      have hb : some (some p) ∈ b := by
        cases hx : (a ++ some (some p) :: b)[j]? with
        | none => rw [hx] at hj; cases hj
        | some x =>
          rw [hx] at hj
          have hxe : x = some (some p) := hj
          subst hxe
          rw [List.getElem?_append_right (by omega)] at hx
          obtain ⟨k, hk⟩ : ∃ k, j - a.length = k + 1 := ⟨j - a.length - 1, by omega⟩
          rw [hk, List.getElem?_cons_succ] at hx
          exact List.mem_of_getElem? hx
      unfold owned at hn1
      rw [hc, fm_mid] at hn1
      have hpb : p ∈ b.filterMap Option.join := List.mem_filterMap.2 ⟨_, hb, rfl⟩
      exact (List.nodup_cons.1 (List.nodup_append.1 hn1).2.1).1 hpb
    rcases Nat.lt_or_gt_of_ne hne with hlt | hgt
    · exact key i j hlt hi hj
    · exact key j i hgt hj hi
  · intro i p hi
    obtain ⟨a, b, hc, rfl⟩ := at_some hi
    have hp : p ∈ owned s := by unfold owned; rw [hc, fm_mid]; simp
    have hdis := (List.nodup_append.1 hn).2.2
    exact ⟨fun hm => hdis p hp p (List.mem_append_left _ hm) rfl, fun hm => hdis p hp p (List.mem_append_right _ hm) rfl⟩

/-- A hand-over: by copy or by move, always from the newest wrapper. -/
def handOver (kind : Bool) (i : Nat) : MOp P := if kind then .copy i else .move i

/-- C19: along any chain of copies and moves the newest wrapper owns the payload and all earlier ones are empty. -/
theorem C19_chain (s : MocState P) (p : P) (kinds : List Bool) :
    ∃ s', MocState.run { s with cells := s.cells ++ [some (some p)] }
        ((List.range kinds.length).map fun k => handOver (kinds.getD k true) (s.cells.length + k)) = some s' ∧
      s'.cells = s.cells ++ List.replicate kinds.length (some none) ++ [some (some p)] ∧ s'.out = s.out ∧ s'.gone = s.gone := by
  have tr : ∀ (b : Bool) (c : List (Option (Option P))) (s : MocState P), s.cells = c ++ [some (some p)] →
      s.step (handOver b c.length) = some { s with cells := c ++ [some none] ++ [some (some p)] } := by
    intro b c s hs
    have ht : s.transfer c.length = some { s with cells := c ++ [some none] ++ [some (some p)] } := by
      unfold MocState.transfer MocState.at
      rw [hs]
      simp
    cases b <;> exact ht
  have run : ∀ (n : Nat) (f : Nat → Bool) (c : List (Option (Option P))) (s : MocState P), s.cells = c ++ [some (some p)] →
      MocState.run s ((List.range n).map fun k => handOver (f k) (c.length + k)) =
        some { s with cells := c ++ List.replicate n (some none) ++ [some (some p)] } := by
    intro n
    induction n with
    | zero => intro f c s hs; simp [MocState.run, ← hs]
    | succ n ih =>
      intro f c s hs
      rw [List.range_succ_eq_map, List.map_cons, List.map_map]
      simp only [MocState.run, Nat.add_zero]
      rw [tr (f 0) c s hs]
      have := ih (fun k => f (k + 1)) (c ++ [some none]) { s with cells := c ++ [some none] ++ [some (some p)] } rfl
      simp only [Option.bind_some]
      have hmap : (List.map ((fun k => handOver (f k) (c.length + k)) ∘ Nat.succ) (List.range n) : List (MOp P)) =
          List.map (fun k => handOver (f (k + 1)) ((c ++ [some none]).length + k)) (List.range n) := by
        apply List.map_congr_left
        intro k _
        simp only [Function.comp, List.length_append, List.length_singleton]
        congr 1
        omega
      rw [hmap, this]
      simp [List.replicate_succ]
  exact ⟨_, run kinds.length (fun k => kinds.getD k true) s.cells _ rfl, rfl, rfl, rfl⟩

/-- C19, the price: whoever copies from a wrapper that has been copied before gets an empty one. -/
theorem C19_second_copy (s s1 s2 : MocState P) (i : Nat) (h1 : s.step (.copy i) = some s1) (h2 : s1.step (.copy i) = some s2) :
    s2.at (s.cells.length + 1) = some none := by
  have e1 : s.transfer i = some s1 := h1
  have e2 : s1.transfer i = some s2 := h2
  unfold MocState.transfer at e1
  cases hv : s.at i with
  | none => rw [hv] at e1; cases e1
  | some v =>
    rw [hv] at e1
    cases e1
    obtain ⟨a, b, hc, rfl⟩ := at_some hv
    unfold MocState.transfer MocState.at at e2
    simp only [hc, set_mid] at e2
    simp at e2
    subst e2
    unfold MocState.at
    rw [hc]
    have hlen : (a ++ some v :: b).length + 1 = (a ++ some none :: (b ++ [some v])).length := by simp; omega
    have happ : a ++ some none :: (b ++ [some v, some none]) = (a ++ some none :: (b ++ [some v])) ++ [some none] := by simp
    simp only [hlen, happ]
    rw [List.getElem?_append_right (Nat.le_refl _), Nat.sub_self]
    rfl

example : ∃ s, (MocState.start : MocState Nat).run [.make 5, .make 6, .copy 0, .move 2, .copyAssign 1 3, .release 1, .copy 0, .destroy 3] = some s ∧
    s.out = [5] ∧ s.gone = [6] ∧ owned s = [] := ⟨_, rfl, rfl, rfl, rfl⟩

end G3.Props
