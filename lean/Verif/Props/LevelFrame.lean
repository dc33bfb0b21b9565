import Verif.Props.LevelThreads
/-
C77, the places: what `RCode.access` says about an access (where, is it a write) agrees with what the access does to memory. Without this a wrong
entry in that table could hide a race.
-/
namespace G3.Props
open G3 G3.Spec

theorem keys_regStore (k : Int) (b : Bool) (r : Registry) : (regStore k b r).map Prod.fst = r.map Prod.fst := by
  induction r with
  | nil => rfl
  | cons p r ih =>
    simp only [regStore, List.map_cons] at ih ⊢
    rw [ih]; split <;> rfl

theorem keys_regLevel (k : Int) (l : Level) (r : Registry) : (regLevel k l r).map Prod.fst = r.map Prod.fst := by
  induction r with
  | nil => rfl
  | cons p r ih =>
    simp only [regLevel, List.map_cons] at ih ⊢
    rw [ih]; split <;> rfl

theorem lookup_regStore (k : Int) (b : Bool) (r : Registry) (j : Int) :
    Registry.find? j (regStore k b r) = (Registry.find? j r).map fun v => if j = k then { v with status := b } else v := by
  induction r with
  | nil => rfl
  | cons p r ih =>
    obtain ⟨i, v⟩ := p
    simp only [regStore, List.map_cons] at ih ⊢
    by_cases hik : i = k
    · subst hik
      simp only [if_true, Registry.find?]
      by_cases hj : j = i
      · simp only [hj, if_true, Option.map_some]
      · simp only [hj, if_false]; rw [ih]; simp only [hj, if_false]
    · simp only [hik, if_false, Registry.find?]
      by_cases hj : j = i
      · subst hj; simp only [if_true, Option.map_some, hik, if_false]
      · simp only [hj, if_false]; exact ih

theorem lookup_regLevel (k : Int) (l : Level) (r : Registry) (j : Int) :
    Registry.find? j (regLevel k l r) = (Registry.find? j r).map fun v => if j = k then { v with level := l } else v := by
  induction r with
  | nil => rfl
  | cons p r ih =>
    obtain ⟨i, v⟩ := p
    simp only [regLevel, List.map_cons] at ih ⊢
    by_cases hik : i = k
    · subst hik
      simp only [if_true, Registry.find?]
      by_cases hj : j = i
      · simp only [hj, if_true, Option.map_some]
      · simp only [hj, if_false]; rw [ih]; simp only [hj, if_false]
    · simp only [hik, if_false, Registry.find?]
      by_cases hj : j = i
      · subst hj; simp only [if_true, Option.map_some, hik, if_false]
      · simp only [hj, if_false]; exact ih

theorem lookup_insert_other (k : Int) (v : LoggingLevel) (r : Registry) (hk : Registry.find? k r = none) (j : Int) (w : LoggingLevel)
    (hj : Registry.find? j r = some w) : Registry.find? j (Registry.insert k v r) = some w := by
  have hne : j ≠ k := fun e => by subst e; rw [hk] at hj; cases hj
  induction r with
  | nil => cases hj
  | cons p r ih =>
    obtain ⟨i, x⟩ := p
    simp only [Registry.find?] at hk hj
    simp only [Registry.insert]
    split
    · simp only [Registry.find?, hne, if_false]; exact hj
    split
    · rename_i e; simp only [e, if_true] at hk; cases hk
    · rename_i e
      simp only [e, if_false] at hk
      simp only [Registry.find?]
      split at hj
      · rename_i ej; simp only [ej, if_true]; exact hj
      · rename_i ej; simp only [ej, if_false]; exact ih hk hj

/-- C77, where an access goes. An access that is not called a write changes nothing. One to a status changes that status and nothing else; one to a
level changes that level and nothing else; one to the tree leaves every node that exists as it is. -/
theorem C77_frame (r r' : Registry) (c c' : RCode) (a : RLoc × Bool × Bool) (ha : c.access r = some a) (he : c.exec r = some (r', c')) :
    (a.2.1 = false → r' = r) ∧
    (∀ k, a.1 = .status k → r'.map Prod.fst = r.map Prod.fst ∧ (∀ j, j ≠ k → r'.find? j = r.find? j) ∧
      (r'.find? k).map LoggingLevel.level = (r.find? k).map LoggingLevel.level) ∧
    (∀ k, a.1 = .level k → r'.map Prod.fst = r.map Prod.fst ∧ (∀ j, j ≠ k → r'.find? j = r.find? j) ∧
      (r'.find? k).map LoggingLevel.status = (r.find? k).map LoggingLevel.status) ∧
    (a.1 = .tree → ∀ j v, r.find? j = some v → r'.find? j = some v) := by
  cases c with
  | ret o => cases ha
  | find k n => cases ha; cases he; exact ⟨fun _ => rfl, fun _ e => (by cases e), fun _ e => (by cases e), fun _ _ _ h => h⟩
  | keys n => cases ha; cases he; exact ⟨fun _ => rfl, fun _ e => (by cases e), fun _ e => (by cases e), fun _ _ _ h => h⟩
  | advance n => cases ha; cases he; exact ⟨fun _ => rfl, fun _ e => (by cases e), fun _ e => (by cases e), fun _ _ _ h => h⟩
  | replace n => cases ha; cases he; exact ⟨fun e => (by cases e), fun _ e => (by cases e), fun _ e => (by cases e), fun e => (by cases e)⟩
  | index k n =>
    cases ha; cases he
    refine ⟨fun e => ?_, fun _ e => (by cases e), fun _ e => (by cases e), fun _ j v h => ?_⟩
    · unfold regIndex
      cases hf : Registry.find? k r with
      | none => simp only [hf, Option.isNone_none] at e; cases e
      | some v => rfl
    · unfold regIndex
      cases hf : Registry.find? k r with
      | none => exact lookup_insert_other k _ r hf j v h
      | some _ => exact h
  | load k n =>
    cases ha; cases he
    exact ⟨fun _ => rfl, fun _ _ => ⟨rfl, fun _ _ => rfl, rfl⟩, fun _ e => (by cases e), fun e => (by cases e)⟩
  | readLevel k n =>
    cases ha; cases he
    exact ⟨fun _ => rfl, fun _ e => (by cases e), fun _ _ => ⟨rfl, fun _ _ => rfl, rfl⟩, fun e => (by cases e)⟩
  | store k b n =>
    cases ha; cases he
    refine ⟨fun e => (by cases e), fun k' e => ?_, fun _ e => (by cases e), fun e => (by cases e)⟩
    cases e
    refine ⟨keys_regStore k b r, fun j hj => ?_, ?_⟩
    · rw [lookup_regStore]; simp only [hj, if_false, Option.map_id']
    · rw [lookup_regStore]; simp only [if_true, Option.map_map]; rfl
  | writeLevel k l n =>
    cases ha; cases he
    refine ⟨fun e => (by cases e), fun _ e => (by cases e), fun k' e => ?_, fun e => (by cases e)⟩
    cases e
    refine ⟨keys_regLevel k l r, fun j hj => ?_, ?_⟩
    · rw [lookup_regLevel]; simp only [hj, if_false, Option.map_id']
    · rw [lookup_regLevel]; simp only [if_true, Option.map_map]; rfl

/-- C77, and an access that is called a write is one: in some memory in which it is the same access it changes something. -/
theorem C77_writes (r : Registry) (c : RCode) (a : RLoc × Bool × Bool) (ha : c.access r = some a) (hw : a.2.1 = true) :
    ∃ r0 r' c', c.access r0 = some a ∧ c.exec r0 = some (r', c') ∧ r' ≠ r0 := by
  cases c with
  | ret o => cases ha
  | find k n => cases ha; cases hw
  | keys n => cases ha; cases hw
  | advance n => cases ha; cases hw
  | load k n => cases ha; cases hw
  | readLevel k n => cases ha; cases hw
  | replace n => cases ha; exact ⟨[], _, _, rfl, rfl, fun e => (by cases e)⟩
  | index k n =>
    cases ha
    refine ⟨[], _, _, ?_, rfl, fun e => (by cases e)⟩
    have hw' : (Registry.find? k r).isNone = true := hw
    simp only [RCode.access, Registry.find?, Option.isNone_none]
    rw [hw']
  | store k b n =>
    cases ha
    refine ⟨[(k, ⟨!b, INFO⟩)], _, _, rfl, rfl, ?_⟩
    simp only [regStore, List.map_cons, List.map_nil, if_true]
    cases b <;> simp
  | writeLevel k l n =>
    cases ha
    refine ⟨[(k, ⟨true, ⟨l.value + 1, []⟩⟩)], _, _, rfl, rfl, ?_⟩
    simp only [regLevel, List.map_cons, List.map_nil, if_true]
    intro e
    injection e with e _
    injection e with _ e
    injection e with _ e
    have : l.value = l.value + 1 := congrArg Level.value e
    omega

/-- What the next part of a program is told depends only on the place it read. -/
theorem C77_reads (r1 r2 r1' r2' : Registry) (c c1 c2 : RCode) (h1 : c.exec r1 = some (r1', c1)) (h2 : c.exec r2 = some (r2', c2))
    (a : RLoc × Bool × Bool) (ha : c.access r1 = some a)
    (same : (a.1 = .tree → r1.map Prod.fst = r2.map Prod.fst ∧ ∀ j, (r1.find? j).isSome = (r2.find? j).isSome) ∧
      (∀ k, a.1 = .status k → (r1.find? k).map LoggingLevel.status = (r2.find? k).map LoggingLevel.status) ∧
      (∀ k, a.1 = .level k → (r1.find? k).map LoggingLevel.level = (r2.find? k).map LoggingLevel.level)) : c1 = c2 := by
  obtain ⟨s1, s2, s3⟩ := same
  cases c with
  | ret o => cases ha
  | find k n => cases ha; cases h1; cases h2; rw [(s1 rfl).2 k]
  | keys n => cases ha; cases h1; cases h2; rw [(s1 rfl).1]
  | advance n => cases h1; cases h2; rfl
  | replace n => cases h1; cases h2; rfl
  | index k n => cases h1; cases h2; rfl
  | store k b n => cases h1; cases h2; rfl
  | writeLevel k l n => cases h1; cases h2; rfl
  | readLevel k n => cases ha; cases h1; cases h2; rw [s3 k rfl]
  | load k n =>
    cases ha; cases h1; cases h2
    have h := s2 k rfl
    have : regStatus k r1 = regStatus k r2 := by
      unfold regStatus
      cases e1 : Registry.find? k r1 <;> cases e2 : Registry.find? k r2 <;> rw [e1, e2] at h <;> first | rfl | cases h | skip
      injection h
    rw [this]

/-- Not empty: a store to the status of INFO in the default registry. -/
example : (RCode.store INFO.value false (.ret (.out .unit))).access defaultLevels = some (.status 300, true, true) ∧
    ((RCode.store INFO.value false (.ret (.out .unit))).exec defaultLevels).isSome = true := ⟨rfl, rfl⟩

end G3.Props
