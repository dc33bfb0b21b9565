import Verif.Model.Delivery
import Verif.Props.LogMessage
import Mathlib.Data.List.Nodup
/-
C72: each sink gets its own, complete copy of a message.
-/
namespace G3.Props
open G3 G3.Spec

/-- The sinks served by a schedule, in order. -/
def sentTo (ls : List DLabel) : List Nat := ls.filterMap fun | .send i => some i | _ => none

/-- What a sink should be given for a message. -/
def dueTo (E : Env) (textual : Nat → Bool) (m : LogMessage) (i : Nat) : Given :=
  if textual i then .text (toString E m .default).1 else .message m

/-- The original is intact; each message on its way is complete and has an object of its own. -/
structure DelInv (E : Env) (textual : Nat → Bool) (m : LogMessage) (s : DelState) (sent : List Nat) : Prop where
  orig : s.objs[(0 : Nat)]? = some m
  carry : ∀ p ∈ s.queued, s.objs[p.2]? = some m ∧ p.2 ≠ 0
  own : (s.queued.map (·.2)).Nodup
  seen : ∀ p ∈ s.seen, p.2 = dueTo E textual m p.1
  count : (s.seen.map (·.1) ++ s.queued.map (·.1)).Perm sent

theorem moveFrom_props {left : LogMessage → LogMessage} {objs objs' : List LogMessage} {o : Nat} {m : LogMessage}
    (h : moveFrom left objs o = some objs') (ho : objs[o]? = some m) (hm : Char.ofNat 0 ∉ m.level.text) :
    objs'[objs.length]? = some m ∧ ∀ (q : Nat) (x : LogMessage), q ≠ o → objs[q]? = some x → objs'[q]? = some x := by
  unfold moveFrom at h
  rw [ho] at h
  simp only [Option.some.injEq] at h
  subst h
  constructor
  · rw [List.getElem?_append_right (by simp)]
    simp [(C29_copy m hm 0).2.1]
  · intro q x hq hx
    have hl : q < objs.length := (List.getElem?_eq_some_iff.1 hx).1
    rw [List.getElem?_append_left (by simpa using hl), List.getElem?_set_ne (fun e => hq e.symm)]
    exact hx

theorem moveFrom_some {left : LogMessage → LogMessage} {objs : List LogMessage} {o : Nat} {m : LogMessage} (ho : objs[o]? = some m) :
    ∃ objs', moveFrom left objs o = some objs' := by unfold moveFrom; rw [ho]; exact ⟨_, rfl⟩

theorem eraseIdx_perm {α : Type} : ∀ (l : List α) (k : Nat) (x : α), l[k]? = some x → (x :: l.eraseIdx k).Perm l
  | [], k, x, h => by simp at h
  | a :: l, 0, x, h => by simp at h; subst h; simp
  | a :: l, k + 1, x, h => by
    have h' : l[k]? = some x := by simpa using h
    rw [List.eraseIdx_cons_succ]
    exact (List.Perm.swap a x _).trans ((eraseIdx_perm l k x h').cons a)

theorem lt_of_get {α : Type} {l : List α} {k : Nat} {x : α} (h : l[k]? = some x) : k < l.length := (List.getElem?_eq_some_iff.1 h).1

theorem delInv_step {E : Env} {left : LogMessage → LogMessage} {textual : Nat → Bool} {m : LogMessage} (hm : Char.ofNat 0 ∉ m.level.text)
    {s s' : DelState} {sent : List Nat} (l : DLabel) (hi : DelInv E textual m s sent) (hs : dStep E left textual s l = some s') :
    DelInv E textual m s' (sent ++ sentTo [l]) := by
  cases l with
  | send i =>
    unfold dStep at hs
    rw [hi.orig] at hs
    simp only [Option.map_eq_some_iff] at hs
    obtain ⟨objs2, h2, rfl⟩ := hs
    have ho : (s.objs ++ [m.copy])[s.objs.length]? = some m := by simp [(C29_copy m hm 0).1]
    obtain ⟨a, b⟩ := moveFrom_props h2 ho hm
    have h0 := lt_of_get hi.orig
    have keep : ∀ (q : Nat) (x : LogMessage), s.objs[q]? = some x → objs2[q]? = some x := by
      intro q x hq
      have := lt_of_get hq
      exact b q x (by omega) (by rw [List.getElem?_append_left this]; exact hq)
    refine ⟨keep _ _ hi.orig, ?_, ?_, hi.seen, ?_⟩
    · intro p hp
      rcases List.mem_append.1 hp with hp | hp
      · exact ⟨keep _ _ (hi.carry p hp).1, (hi.carry p hp).2⟩
      · rw [List.mem_singleton.1 hp]
        exact ⟨a, by simp⟩
    · simp only [List.map_append, List.map_cons, List.map_nil]
      rw [List.nodup_append]
      refine ⟨hi.own, by simp, ?_⟩
      intro x hx y hy e
      obtain ⟨p, hp, rfl⟩ := List.mem_map.1 hx
      have := lt_of_get (hi.carry p hp).1
      simp only [List.mem_singleton, List.length_append, List.length_cons, List.length_nil] at hy
      omega
    · simp only [List.map_append, List.map_cons, List.map_nil, ← List.append_assoc]
      exact hi.count.append_right _
  | pass k =>
    simp only [dStep] at hs
    cases hq : s.queued[k]? with
    | none => rw [hq] at hs; cases hs
    | some x =>
      obtain ⟨i, o⟩ := x
      rw [hq] at hs
      simp only [Option.map_eq_some_iff] at hs
      obtain ⟨objs1, h1, rfl⟩ := hs
      obtain ⟨hk, hkx⟩ := List.getElem?_eq_some_iff.1 hq
      obtain ⟨c1, c2⟩ := hi.carry (i, o) (List.mem_of_getElem? hq)
      obtain ⟨a, b⟩ := moveFrom_props h1 c1 hm
      have hnd := hi.own
      have hother : ∀ p ∈ s.queued.set k (i, s.objs.length), p = (i, s.objs.length) ∨ (p ∈ s.queued ∧ p.2 ≠ o) := by
        intro p hp
        obtain ⟨j, hj⟩ := List.mem_iff_getElem?.1 hp
        by_cases hjk : j = k
        · subst hjk
          rw [List.getElem?_set_self hk] at hj
          exact Or.inl (Option.some.inj hj).symm
        · rw [List.getElem?_set_ne (fun e => hjk e.symm)] at hj
          refine Or.inr ⟨List.mem_of_getElem? hj, fun e => hjk ?_⟩
          have hjl := lt_of_get hj
          refine (List.Nodup.getElem_inj_iff hnd (hi := by simpa using hjl) (hj := by simpa using hk)).1 ?_
          obtain ⟨_, hj'⟩ := List.getElem?_eq_some_iff.1 hj
          simp only [List.getElem_map, hj', hkx, e]
      refine ⟨b 0 m (fun e => c2 e.symm) hi.orig, ?_, ?_, hi.seen, ?_⟩
      · intro p hp
        rcases hother p hp with rfl | ⟨hp, hne⟩
        · have := lt_of_get hi.orig
          exact ⟨a, by simp only; omega⟩
        · exact ⟨b _ _ hne (hi.carry p hp).1, (hi.carry p hp).2⟩
      · rw [List.map_set]
        refine List.Nodup.set hnd ?_
        intro hmem
        obtain ⟨p, hp, e⟩ := List.mem_map.1 hmem
        have := lt_of_get (hi.carry p hp).1
        omega
      · have : (s.queued.set k (i, s.objs.length)).map (·.1) = s.queued.map (·.1) := by
          rw [List.map_set]
          apply List.ext_getElem?
          intro j
          by_cases hjk : j = k
          · subst hjk
            rw [List.getElem?_set_self (by simpa using hk), List.getElem?_map, hq]; rfl
          · rw [List.getElem?_set_ne (fun e => hjk e.symm)]
        simp only [this]
        simpa [sentTo] using hi.count
  | callback k f =>
    simp only [dStep] at hs
    cases hq : s.queued[k]? with
    | none => rw [hq] at hs; cases hs
    | some x =>
      obtain ⟨i, o⟩ := x
      rw [hq] at hs
      simp only [Option.bind_eq_some_iff] at hs
      obtain ⟨objs1, h1, hs⟩ := hs
      obtain ⟨c1, c2⟩ := hi.carry (i, o) (List.mem_of_getElem? hq)
      obtain ⟨a, b⟩ := moveFrom_props h1 c1 hm
      rw [a] at hs
      simp only [Option.some.injEq] at hs
      subst hs
      have hp := eraseIdx_perm s.queued k (i, o) hq
      have hnd : (o :: (s.queued.eraseIdx k).map (·.2)).Nodup := ((hp.map (fun p : Nat × Nat => p.2)).nodup_iff).2 hi.own
      have h0 := lt_of_get hi.orig
      have keep : ∀ (q : Nat) (x : LogMessage), q < s.objs.length → objs1[q]? = some x → (objs1.set s.objs.length (f m))[q]? = some x := by
        intro q x hq hx
        rw [List.getElem?_set_ne (by omega)]; exact hx
      refine ⟨keep _ _ h0 (b 0 m (fun e => c2 e.symm) hi.orig), ?_, (List.nodup_cons.1 hnd).2, ?_, ?_⟩
      · intro p hpm
        have hpq : p ∈ s.queued := hp.subset (List.mem_cons_of_mem _ hpm)
        have hne : p.2 ≠ o := fun e => (List.nodup_cons.1 hnd).1 (e ▸ List.mem_map_of_mem hpm)
        exact ⟨keep _ _ (lt_of_get (hi.carry p hpq).1) (b _ _ hne (hi.carry p hpq).1), (hi.carry p hpq).2⟩
      · intro p hpm
        rcases List.mem_append.1 hpm with hpm | hpm
        · exact hi.seen p hpm
        · rw [List.mem_singleton.1 hpm]; rfl
      · simp only [List.map_append, List.map_cons, List.map_nil, List.append_assoc, sentTo, List.filterMap_cons, List.filterMap_nil,
          List.append_nil]
        exact ((hp.map (·.1)).append_left _).trans hi.count

theorem delInv_run {E : Env} {left : LogMessage → LogMessage} {textual : Nat → Bool} {m : LogMessage} (hm : Char.ofNat 0 ∉ m.level.text)
    (ls : List DLabel) {s s' : DelState} {sent : List Nat} (hi : DelInv E textual m s sent) (hs : dRun E left textual s ls = some s') :
    DelInv E textual m s' (sent ++ sentTo ls) := by
  induction ls generalizing s sent with
  | nil => cases hs; simpa [sentTo] using hi
  | cons l ls ih =>
    unfold dRun at hs
    cases h : dStep E left textual s l with
    | none => rw [h] at hs; cases hs
    | some s1 =>
      rw [h] at hs
      have := ih (delInv_step hm l hi h) hs
      have e : sentTo (l :: ls) = sentTo [l] ++ sentTo ls := by
        unfold sentTo; rw [← List.filterMap_append]; rfl
      rw [e, ← List.append_assoc]
      exact this

theorem delInv_start (E : Env) (textual : Nat → Bool) (m : LogMessage) : DelInv E textual m (DelState.start m) [] :=
  ⟨rfl, by simp [DelState.start], by simp [DelState.start], by simp [DelState.start], by simp [DelState.start]⟩

/-- C72: whatever the callbacks do to their messages, in whichever order the threads run and however often a message is handed over on its way,
each callback is given the complete original message (a callback for strings: the text of `toString()`). Whatever a move leaves behind in an
object (`left`) does not matter. -/
theorem C72_same (E : Env) (left : LogMessage → LogMessage) (textual : Nat → Bool) (m : LogMessage) (hm : Char.ofNat 0 ∉ m.level.text)
    (ls : List DLabel) (s : DelState) (hs : dRun E left textual (DelState.start m) ls = some s) (i : Nat) (g : Given) (hg : (i, g) ∈ s.seen) :
    g = dueTo E textual m i :=
  (delInv_run hm ls (delInv_start E textual m) hs).seen (i, g) hg

/-- C72: nobody is given it twice or without having been served, and when nothing is on its way any more every sink served has
been given it. -/
theorem C72_once (E : Env) (left : LogMessage → LogMessage) (textual : Nat → Bool) (m : LogMessage) (hm : Char.ofNat 0 ∉ m.level.text)
    (ls : List DLabel) (s : DelState) (hs : dRun E left textual (DelState.start m) ls = some s) :
    (∀ i, (s.seen.map (·.1)).count i ≤ (sentTo ls).count i) ∧ (s.queued = [] → (s.seen.map (·.1)).Perm (sentTo ls)) := by
  have h := (delInv_run hm ls (delInv_start E textual m) hs).count
  rw [List.nil_append] at h
  refine ⟨fun i => ?_, fun hq => ?_⟩
  · rw [← h.count_eq, List.count_append]; omega
  · rw [hq] at h; simpa using h

/-- C72: the worker's own object stays intact, so that the next sink or the report about missing sinks (logworker.cpp:31-35) gets the
complete message too; and the worker can always go on to serve another sink. -/
theorem C72_original (E : Env) (left : LogMessage → LogMessage) (textual : Nat → Bool) (m : LogMessage) (hm : Char.ofNat 0 ∉ m.level.text)
    (ls : List DLabel) (s : DelState) (hs : dRun E left textual (DelState.start m) ls = some s) :
    s.objs[(0 : Nat)]? = some m ∧ (∀ i, ∃ s', dStep E left textual s (.send i) = some s') ∧
    ∀ k f, k < s.queued.length → ∃ s', dStep E left textual s (.callback k f) = some s' := by
  have hi := delInv_run hm ls (delInv_start E textual m) hs
  refine ⟨hi.orig, fun i => ?_, fun k f hk => ?_⟩
  · unfold dStep
    rw [hi.orig]
    obtain ⟨o, ho⟩ := moveFrom_some (left := left) (objs := s.objs ++ [m.copy]) (o := s.objs.length) (m := m.copy) (by simp)
    simp only [ho]
    exact ⟨_, rfl⟩
  · simp only [dStep]
    obtain ⟨⟨i, o⟩, hq⟩ : ∃ x, s.queued[k]? = some x := ⟨_, List.getElem?_eq_getElem hk⟩
    obtain ⟨c1, _⟩ := hi.carry (i, o) (List.mem_of_getElem? hq)
    obtain ⟨objs1, h1⟩ := moveFrom_some (left := left) c1
    rw [hq]
    simp only [h1, Option.bind_some, (moveFrom_props h1 c1 hm).1]
    exact ⟨_, rfl⟩

/-- Two sinks, the first of which erases its message before the second is served; the second takes strings. -/
example : ∃ s, dRun ⟨fun _ => [], fun _ => [], fun _ _ => []⟩ (fun m => { m with message := [], file := [] }) (· == 1)
      (DelState.start { LogMessage.new false 0 1 [] 0 [] INFO with message := "hi".toList })
      [.send 0, .pass 0, .callback 0 (fun m => { m with message := [] }), .send 1, .pass 0, .pass 0, .callback 0 id] = some s ∧
    s.queued = [] ∧ s.seen.length = 2 := ⟨_, rfl, rfl, rfl⟩

end G3.Props
