import Verif.Model.LevelThreads
import Verif.Spec.LevelThreads
import Verif.Proofs.Levels
/-
C77: the level registry and several threads.
-/
namespace G3.Props
open G3 G3.Spec G3.Registry

/-! ### One thread alone: the programs of accesses do what Verif.Model.Levels says -/

/-- A program run without interruption. -/
def soloRun : RCode → Registry → RegOut × Registry
  | .ret o, r => (o, r)
  | .find k c, r => soloRun (c (r.find? k).isSome) r
  | .keys c, r => soloRun (c (r.map Prod.fst)) r
  | .advance c, r => soloRun c r
  | .index k c, r => soloRun c (regIndex k r)
  | .replace c, _ => soloRun c defaultLevels
  | .load k c, r => soloRun (c (regStatus k r)) r
  | .store k b c, r => soloRun c (regStore k b r)
  | .readLevel k c, r => soloRun (c ((r.find? k).map LoggingLevel.level)) r
  | .writeLevel k l c, r => soloRun c (regLevel k l r)

theorem soloRun_exec {c c' : RCode} {r r' : Registry} (h : c.exec r = some (r', c')) : soloRun c r = soloRun c' r' := by
  cases c <;> simp only [RCode.exec, Option.some.injEq, Prod.mk.injEq, reduceCtorEq] at h <;> obtain ⟨rfl, rfl⟩ := h <;> rfl

theorem put_present (k : Int) (b : Bool) (l : Level) (r : Registry) (hs : r.Sorted) (h : r.find? k ≠ none) :
    regLevel k l (regStore k b r) = r.insert k ⟨b, l⟩ := by
  induction r with
  | nil => exact absurd rfl h
  | cons p r ih =>
    obtain ⟨j, v⟩ := p
    have hs' : (∀ i ∈ keys r, j < i) ∧ Sorted r := by simpa [Sorted, keys, List.pairwise_cons] using hs
    have tail : ∀ r' : Registry, (∀ i ∈ keys r', k ≠ i) → regLevel k l (regStore k b r') = r' := by
      intro r' hk
      simp only [regLevel, regStore, List.map_map]
      conv_rhs => rw [← List.map_id r']
      refine List.map_congr_left fun x hx => ?_
      have : x.1 ≠ k := fun e => hk x.1 (List.mem_map_of_mem hx) e.symm
      simp [this]
    by_cases hkj : k = j
    · subst hkj
      have ht := tail r fun i hi e => by have := hs'.1 i hi; omega
      simp only [Registry.insert, Int.lt_irrefl, if_false, if_true]
      simp only [regLevel, regStore] at ht
      simp [regLevel, regStore, ht]
    · have hf : Registry.find? k r ≠ none := by simpa [find?, hkj] using h
      have hlt : ¬ k < j := by
        have := (mem_keys r k).2 hf
        have := hs'.1 k this
        omega
      simp only [Registry.insert, hlt, hkj, if_false]
      rw [← ih hs'.2 hf]
      have : ¬ j = k := fun e => hkj e.symm
      simp [regLevel, regStore, this]

theorem insert_insert (k : Int) (v w : LoggingLevel) (r : Registry) : (r.insert k v).insert k w = r.insert k w := by
  induction r with
  | nil => simp [Registry.insert]
  | cons p r ih =>
    obtain ⟨j, x⟩ := p
    simp only [Registry.insert]
    split
    · simp [Registry.insert]
    · split
      · rename_i e; subst e; simp [Registry.insert]
      · rename_i h1 h2; simp [Registry.insert, h1, h2, ih]

theorem assign_alone (l : Level) (b : Bool) (r : Registry) (hs : r.Sorted) (c : RCode) :
    soloRun (assignCode l b c) r = soloRun c (r.insert l.value (LoggingLevel.mk' l b)) := by
  simp only [assignCode, soloRun]
  congr 1
  unfold regIndex
  split
  · rename_i h; exact put_present _ _ _ _ hs (by rw [h]; simp)
  · rw [put_present _ _ _ _ (sorted_insert _ _ _ hs) (by rw [find?_insert]; simp), insert_insert]; rfl

theorem set_alone (l : Level) (b : Bool) (r : Registry) (hs : r.Sorted) (c : RCode) : soloRun (setCode l b c) r = soloRun c (setLevel l b r) := by
  simp only [setCode, soloRun, setLevel]
  cases h : r.find? l.value with
  | none => simp
  | some v => simp only [Option.isSome_some, if_true]; exact assign_alone l b r hs c

theorem sorted_set (l : Level) (b : Bool) (r : Registry) (hs : r.Sorted) : (setLevel l b r).Sorted := by
  unfold setLevel
  split
  · exact sorted_insert _ _ _ hs
  · exact hs

theorem setHighest_alone (t : Int) (c : RCode) : ∀ (ks : List Int) (r : Registry), r.Sorted →
    soloRun (setHighestCode t c ks) r = soloRun c (setHighestLoop t ks r)
  | [], r, _ => rfl
  | k :: ks, r, hs => by
    simp only [setHighestCode, soloRun, setHighestLoop]
    cases h : r.find? k with
    | none => simp only [Option.map_none]; exact setHighest_alone t c ks r hs
    | some v =>
      simp only [Option.map_some]
      split
      · rw [set_alone _ _ _ hs]; exact setHighest_alone t c ks _ (sorted_set _ _ _ hs)
      · rw [set_alone _ _ _ hs]; exact setHighest_alone t c ks _ (sorted_set _ _ _ hs)

theorem storeAll_alone (b : Bool) (c : RCode) : ∀ (ks : List Int) (r : Registry),
    soloRun (storeAllCode b c ks) r = soloRun c (r.map fun p => if p.1 ∈ ks then (p.1, { p.2 with status := b }) else p)
  | [], r => by simp [storeAllCode]
  | k :: ks, r => by
    simp only [storeAllCode, soloRun]
    rw [storeAll_alone b c ks]
    congr 1
    simp only [regStore, List.map_map]
    refine List.map_congr_left fun x _ => ?_
    by_cases h1 : x.1 = k <;> by_cases h2 : x.1 ∈ ks <;> simp [h1, h2]

theorem copyAll_alone : ∀ (r0 acc r : Registry), r.Sorted → (∀ p ∈ r0, p ∈ r) →
    soloRun (copyAllCode (r0.map Prod.fst) acc) r = (.all (acc ++ r0.map fun p => (p.1, ⟨p.2.status, p.2.level.copy⟩)), r)
  | [], acc, r, _, _ => by simp [copyAllCode, soloRun]
  | (k, v) :: r0, acc, r, hs, hm => by
    have hf : r.find? k = some v := by
      have := hm (k, v) (by simp)
      clear hm
      induction r with
      | nil => cases this
      | cons p r ih =>
        obtain ⟨j, w⟩ := p
        have hs' : (∀ i ∈ keys r, j < i) ∧ Sorted r := by simpa [Sorted, keys, List.pairwise_cons] using hs
        rcases List.mem_cons.1 this with e | e
        · cases e; simp [find?]
        · have : j < k := hs'.1 k (List.mem_map.2 ⟨(k, v), e, rfl⟩)
          have hne : ¬ k = j := by omega
          simp only [find?, hne, if_false]
          exact ih hs'.2 e
    simp only [List.map_cons, copyAllCode, soloRun, hf, regStatus, Option.map_some]
    rw [copyAll_alone r0 _ r hs fun p hp => hm p (List.mem_cons_of_mem _ hp)]
    simp

/-- The single accesses of a call, made without interruption, have the effect and the result that Verif.Model.Levels gives for it. -/
theorem C77_alone (r : Registry) (hs : r.Sorted) (o : LevelOp) :
    soloRun (callCode (.op o)) r = (.out (levelStep r o).1, (levelStep r o).2) := by
  cases o with
  | add l b => simp only [callCode, levelStep]; rw [assign_alone _ _ _ hs]; rfl
  | add1 l => simp only [callCode, levelStep]; rw [assign_alone _ _ _ hs]; rfl
  | reset => rfl
  | setHighest l =>
    simp only [callCode, levelStep, soloRun, setHighest]
    cases h : r.find? l.value with
    | none => simp [soloRun]
    | some v => simp only [Option.isSome_some, if_true, soloRun]; rw [setHighest_alone _ _ _ _ hs]; rfl
  | set l b => simp only [callCode, levelStep]; rw [set_alone _ _ _ hs]; rfl
  | disable l => simp only [callCode, levelStep]; rw [set_alone _ _ _ hs]; rfl
  | enable l => simp only [callCode, levelStep]; rw [set_alone _ _ _ hs]; rfl
  | disableAll =>
    simp only [callCode, levelStep, soloRun]; rw [storeAll_alone]
    simp only [soloRun, disableAll]
    congr 1
    refine List.map_congr_left fun x hx => ?_
    rw [if_pos (List.mem_map_of_mem hx)]
  | enableAll =>
    simp only [callCode, levelStep, soloRun]; rw [storeAll_alone]
    simp only [soloRun, enableAll]
    congr 1
    refine List.map_congr_left fun x hx => ?_
    rw [if_pos (List.mem_map_of_mem hx)]
  | getStatus l =>
    simp only [callCode, levelStep, soloRun, getStatus]
    cases h : r.find? l.value with
    | none => simp [soloRun]
    | some v => simp [soloRun, regStatus, h]
  | logLevel l =>
    simp only [callCode, levelStep, soloRun, logLevel, regIndex, regStatus]
    cases h : r.find? l.value with
    | none => simp [find?_insert]
    | some v => simp [h]

/-- `getAll` returns a copy of the registry and changes nothing. -/
theorem C77_getAll_alone (r : Registry) (hs : r.Sorted) (hc : ∀ p ∈ r, cstr p.2.level.text = p.2.level.text) :
    soloRun (callCode .getAll) r = (.all r, r) := by
  simp only [callCode, soloRun]
  rw [copyAll_alone r [] r hs fun _ h => h]
  congr 2
  rw [List.nil_append]
  conv_rhs => rw [← List.map_id r]
  refine List.map_congr_left fun p hp => ?_
  have := hc p hp
  obtain ⟨k, ⟨b, ⟨v, t⟩⟩⟩ := p
  simp_all [Level.copy]

/-! ### Several threads -/

/-- The level is registered in r. -/
def known (r : Registry) (k : Int) : Prop := r.find? k ≠ none

/-- Every entry holds a level with its own value (true unless LOG was used with a level that was never registered). -/
def Own (r : Registry) : Prop := ∀ k v, r.find? k = some v → v.level.value = k

/-- The program stays within the tree of r and touches only the names it may. -/
def Stays (r : Registry) (W R : Int → Prop) : RCode → Prop
  | .ret _ => True
  | .find k c => Stays r W R (c (r.find? k).isSome)
  | .keys c => Stays r W R (c (r.map Prod.fst))
  | .advance c => Stays r W R c
  | .index k c => known r k ∧ Stays r W R c
  | .replace _ => False
  | .load _ c => ∀ b, Stays r W R (c b)
  | .store _ _ c => Stays r W R c
  | .readLevel k c => known r k ∧ R k ∧ ∀ l : Level, l.value = k → Stays r W R (c (some l))
  | .writeLevel k l c => W k ∧ l.value = k ∧ Stays r W R c

theorem stays_mono {r : Registry} {W R W' R' : Int → Prop} (hW : ∀ k, W k → W' k) (hR : ∀ k, R k → R' k) :
    ∀ c : RCode, Stays r W R c → Stays r W' R' c
  | .ret _, _ => trivial
  | .find k c, h => stays_mono hW hR (c (r.find? k).isSome) h
  | .keys c, h => stays_mono hW hR (c (r.map Prod.fst)) h
  | .advance c, h => stays_mono hW hR c h
  | .index k c, h => ⟨h.1, stays_mono hW hR c h.2⟩
  | .replace _, h => h
  | .load _ c, h => fun b => stays_mono hW hR (c b) (h b)
  | .store _ _ c, h => stays_mono hW hR c h
  | .readLevel k c, h => ⟨h.1, hR _ h.2.1, fun l hl => stays_mono hW hR (c (some l)) (h.2.2 l hl)⟩
  | .writeLevel k l c, h => ⟨hW _ h.1, h.2.1, stays_mono hW hR c h.2.2⟩

theorem stays_set {r : Registry} {W R : Int → Prop} {l : Level} {b : Bool} {c : RCode} (hW : known r l.value → W l.value) (hc : Stays r W R c) :
    Stays r W R (setCode l b c) := by
  show Stays r W R (if (r.find? l.value).isSome = true then _ else _)
  split
  · rename_i h
    have hk : known r l.value := fun e => by rw [e] at h; cases h
    exact ⟨hk, hW hk, rfl, hc⟩
  · exact hc

theorem stays_setHighest {r : Registry} {W R : Int → Prop} {t : Int} {c : RCode} (hc : Stays r W R c) : ∀ ks : List Int,
    (∀ k ∈ ks, known r k ∧ W k ∧ R k) → Stays r W R (setHighestCode t c ks)
  | [], _ => hc
  | k :: ks, h => by
    obtain ⟨h1, h2, h3⟩ := h k (by simp)
    refine ⟨h1, h3, ?_⟩
    intro l hl
    have ih : Stays r W R (.advance (setHighestCode t c ks)) := stays_setHighest hc ks fun k hk => h k (List.mem_cons_of_mem _ hk)
    show Stays r W R (if k < t then _ else _)
    split
    · exact stays_set (fun _ => by rw [hl]; exact h2) ih
    · exact stays_set (fun _ => by rw [hl]; exact h2) ih

theorem stays_storeAll {r : Registry} {W R : Int → Prop} {b : Bool} {c : RCode} (hc : Stays r W R c) : ∀ ks : List Int,
    Stays r W R (storeAllCode b c ks)
  | [] => hc
  | _ :: ks => stays_storeAll hc ks

theorem stays_copyAll {r : Registry} {W R : Int → Prop} : ∀ (ks : List Int) (acc : Registry), (∀ k ∈ ks, known r k ∧ R k) →
    Stays r W R (copyAllCode ks acc)
  | [], _, _ => trivial
  | k :: ks, acc, h => by
    intro b
    refine ⟨(h k (by simp)).1, (h k (by simp)).2, ?_⟩
    intro l _
    exact stays_copyAll ks _ fun k hk => h k (List.mem_cons_of_mem _ hk)

theorem known_fst {r : Registry} {k : Int} (h : k ∈ r.map Prod.fst) : known r k := (mem_keys r k).1 h

theorem stays_call {r : Registry} {c : RegCall} (h : ¬ reshapes (known r) c) :
    Stays r (fun k => storesName (known r) k c) (fun k => looksAtName (known r) k c) (callCode c) := by
  have nn : ∀ {k}, ¬¬ known r k → known r k := fun h => Classical.not_not.1 h
  cases c with
  | getAll => exact stays_copyAll _ _ fun k hk => ⟨known_fst hk, known_fst hk⟩
  | op o =>
    cases o with
    | add l b => exact ⟨nn h, rfl, rfl, trivial⟩
    | add1 l => exact ⟨nn h, rfl, rfl, trivial⟩
    | reset => exact h trivial
    | setHighest l =>
      show Stays _ _ _ (if (r.find? l.value).isSome = true then _ else _)
      split
      · rename_i hk
        have hk : known r l.value := fun e => by rw [e] at hk; cases hk
        exact stays_setHighest (c := .ret (.out .unit)) trivial _ fun k h => ⟨known_fst h, ⟨hk, known_fst h⟩, ⟨hk, known_fst h⟩⟩
      · trivial
    | set l b => exact stays_set (fun hk => ⟨rfl, hk⟩) trivial
    | disable l => exact stays_set (fun hk => ⟨rfl, hk⟩) trivial
    | enable l => exact stays_set (fun hk => ⟨rfl, hk⟩) trivial
    | disableAll => exact stays_storeAll (c := .ret (.out .unit)) trivial _
    | enableAll => exact stays_storeAll (c := .ret (.out .unit)) trivial _
    | getStatus l =>
      show Stays _ _ _ (if (r.find? l.value).isSome = true then _ else _)
      split
      · intro b; trivial
      · trivial
    | logLevel l => exact ⟨nn h, fun _ => trivial⟩

/-- Same tree, and every entry its own level. -/
structure SameTree (r0 r : Registry) : Prop where
  keys : r.map Prod.fst = r0.map Prod.fst
  own : Own r

theorem SameTree.find {r0 r : Registry} (h : SameTree r0 r) (k : Int) : (r.find? k).isSome = (r0.find? k).isSome := by
  have e : ∀ r : Registry, (r.find? k).isSome = true ↔ k ∈ r.map Prod.fst := fun r => by
    have := mem_keys r k
    unfold Registry.keys at this
    rw [this, Option.isSome_iff_ne_none]
  rw [Bool.eq_iff_iff, e, e, h.keys]

theorem SameTree.known {r0 r : Registry} (h : SameTree r0 r) (k : Int) : known r k ↔ known r0 k := by
  have := h.find k
  unfold Props.known
  rw [← Option.isSome_iff_ne_none, ← Option.isSome_iff_ne_none, this]

theorem find?_regStore (k j : Int) (b : Bool) (r : Registry) :
    Registry.find? j (regStore k b r) = (r.find? j).map fun v => if j = k then { v with status := b } else v := by
  induction r with
  | nil => rfl
  | cons p r ih =>
    obtain ⟨i, v⟩ := p
    unfold regStore at ih ⊢
    simp only [List.map_cons]
    by_cases hi : i = k <;> by_cases hj : j = i <;> simp_all [find?]

theorem find?_regLevel (k j : Int) (l : Level) (r : Registry) :
    Registry.find? j (regLevel k l r) = (r.find? j).map fun v => if j = k then { v with level := l } else v := by
  induction r with
  | nil => rfl
  | cons p r ih =>
    obtain ⟨i, v⟩ := p
    unfold regLevel at ih ⊢
    simp only [List.map_cons]
    by_cases hi : i = k <;> by_cases hj : j = i <;> simp_all [find?]

theorem sameTree_store {r0 r : Registry} (h : SameTree r0 r) (k : Int) (b : Bool) : SameTree r0 (regStore k b r) := by
  refine ⟨?_, ?_⟩
  · rw [← h.keys]
    simp only [regStore, List.map_map]
    refine List.map_congr_left fun x _ => ?_
    simp only [Function.comp_apply]; split <;> rfl
  · intro j v hv
    rw [find?_regStore] at hv
    cases hf : r.find? j with
    | none => rw [hf] at hv; cases hv
    | some w =>
      rw [hf] at hv
      cases hv
      have := h.own j w hf
      split <;> exact this

theorem sameTree_level {r0 r : Registry} (h : SameTree r0 r) (k : Int) (l : Level) (hl : l.value = k) : SameTree r0 (regLevel k l r) := by
  refine ⟨?_, ?_⟩
  · rw [← h.keys]
    simp only [regLevel, List.map_map]
    refine List.map_congr_left fun x _ => ?_
    simp only [Function.comp_apply]; split <;> rfl
  · intro j v hv
    rw [find?_regLevel] at hv
    cases hf : r.find? j with
    | none => rw [hf] at hv; cases hv
    | some w =>
      rw [hf] at hv
      cases hv
      have := h.own j w hf
      split
      · rename_i e; rw [e]; exact hl
      · exact this

theorem stays_exec {r0 r r' : Registry} {W R : Int → Prop} {c c' : RCode} (h : SameTree r0 r) (hc : Stays r0 W R c)
    (he : c.exec r = some (r', c')) : SameTree r0 r' ∧ Stays r0 W R c' := by
  cases c with
  | ret o => cases he
  | find k c => cases he; rw [h.find]; exact ⟨h, hc⟩
  | keys c => cases he; rw [h.keys]; exact ⟨h, hc⟩
  | advance c => cases he; exact ⟨h, hc⟩
  | index k c =>
    cases he
    refine ⟨?_, hc.2⟩
    have hk := (h.known k).2 hc.1
    unfold regIndex
    split
    · exact h
    · rename_i e; exact absurd e hk
  | replace c => exact absurd hc id
  | load k c => cases he; exact ⟨h, hc _⟩
  | store k b c => cases he; exact ⟨sameTree_store h k b, hc⟩
  | readLevel k c =>
    cases he
    refine ⟨h, ?_⟩
    cases hf : r.find? k with
    | none => exact absurd hf ((h.known k).2 hc.1)
    | some v => exact hc.2.2 v.level (h.own k v hf)
  | writeLevel k l c => cases he; exact ⟨sameTree_level h k l hc.2.1, hc.2.2⟩

/-- Everything every thread will still do stays within its limits. -/
structure RGood (r0 : Registry) (calls : Nat → List RegCall) (s : LtState) : Prop where
  tree : SameTree r0 s.reg
  todo : ∀ t, ∀ c ∈ s.todo t, c ∈ calls t
  code : ∀ t c, s.code t = some c → Stays r0 (fun k => ∃ a ∈ calls t, storesName (known r0) k a) (fun k => ∃ a ∈ calls t, looksAtName (known r0) k a) c

theorem rGood_step {r0 : Registry} {calls : Nat → List RegCall} (hc : ∀ t, ∀ c ∈ calls t, ¬ reshapes (known r0) c) {s s' : LtState} {t : Nat}
    (h : RGood r0 calls s) (hs : ltStep s t = some s') : RGood r0 calls s' := by
  unfold ltStep at hs
  split at hs
  · split at hs
    · cases hs
    · rename_i c cs hd
      cases hs
      refine ⟨h.tree, ?_, ?_⟩
      · intro u x hx
        simp only [atThread] at hx
        split at hx
        · rename_i e; subst e; exact h.todo u x (by rw [hd]; exact List.mem_cons_of_mem _ hx)
        · exact h.todo u x hx
      · intro u x hx
        simp only [atThread] at hx
        split at hx
        · rename_i e; subst e
          cases hx
          have hm := h.todo u c (by rw [hd]; simp)
          exact stays_mono (fun k hk => ⟨c, hm, hk⟩) (fun k hk => ⟨c, hm, hk⟩) _ (stays_call (hc u c hm))
        · exact h.code u x hx
  · rename_i c hcd
    split at hs
    · rename_i r' c' he
      cases hs
      obtain ⟨a, b⟩ := stays_exec h.tree (h.code t c hcd) he
      refine ⟨a, h.todo, ?_⟩
      intro u x hx
      simp only [atThread] at hx
      split at hx
      · rename_i e; subst e; cases hx; exact b
      · exact h.code u x hx
    · cases hs
      refine ⟨h.tree, h.todo, ?_⟩
      intro u x hx
      simp only [atThread] at hx
      split at hx
      · cases hx
      · exact h.code u x hx

theorem rGood_run {r0 : Registry} {calls : Nat → List RegCall} (hc : ∀ t, ∀ c ∈ calls t, ¬ reshapes (known r0) c) :
    ∀ (ts : List Nat) (s s' : LtState), RGood r0 calls s → ltRun s ts = some s' → RGood r0 calls s'
  | [], s, s', h, hr => by cases hr; exact h
  | t :: ts, s, s', h, hr => by
    simp only [ltRun] at hr
    cases hs : ltStep s t with
    | none => rw [hs] at hr; cases hr
    | some m => rw [hs] at hr; exact rGood_run hc ts m s' (rGood_step hc h hs) hr

theorem rGood_start {r0 : Registry} (hown : Own r0) (calls : Nat → List RegCall) : RGood r0 calls (LtState.start r0 calls) :=
  ⟨⟨rfl, hown⟩, fun _ _ h => h, fun _ _ h => by cases h⟩

theorem stays_access {r0 r : Registry} {W R : Int → Prop} {c : RCode} (h : SameTree r0 r) (hc : Stays r0 W R c) {a : RLoc × Bool × Bool}
    (ha : c.access r = some a) :
    a = (.tree, false, false) ∨ (∃ k w, a = (.status k, w, true)) ∨ (∃ k, R k ∧ a = (.level k, false, false)) ∨
      (∃ k, W k ∧ a = (.level k, true, false)) := by
  cases c with
  | ret o => cases ha
  | find k c => cases ha; exact Or.inl rfl
  | keys c => cases ha; exact Or.inl rfl
  | advance c => cases ha; exact Or.inl rfl
  | index k c =>
    cases ha
    have hk := (h.known k).2 hc.1
    left
    cases hf : r.find? k with
    | none => exact absurd hf hk
    | some v => rfl
  | replace c => exact absurd hc id
  | load k c => cases ha; exact Or.inr (Or.inl ⟨k, _, rfl⟩)
  | store k b c => cases ha; exact Or.inr (Or.inl ⟨k, _, rfl⟩)
  | readLevel k c => cases ha; exact Or.inr (Or.inr (Or.inl ⟨k, hc.2.1, rfl⟩))
  | writeLevel k l c => cases ha; exact Or.inr (Or.inr (Or.inr ⟨k, hc.1, rfl⟩))

/-- C77, any number of threads making any number of calls: if calls on different threads are compatible, no schedule leads to a data race. -/
theorem C77_no_race_partial (r0 : Registry) (hown : Own r0) (calls : Nat → List RegCall)
    (hn : ∀ t, ∀ a ∈ calls t, ¬ reshapes (known r0) a)
    (hc : ∀ t u, t ≠ u → ∀ a ∈ calls t, ∀ b ∈ calls u, Compatible (known r0) a b)
    (ts : List Nat) (s : LtState) (hr : ltRun (LtState.start r0 calls) ts = some s) : ¬ RRace s := by
  have g := rGood_run hn ts _ _ (rGood_start hown calls) hr
  rintro ⟨t, u, c, d, a, b, htu, hct, hcu, ha, hb, ⟨hl, hw, hat⟩⟩
  have A := stays_access g.tree (g.code t c hct) ha
  have B := stays_access g.tree (g.code u d hcu) hb
  rcases A with rfl | ⟨k, w, rfl⟩ | ⟨k, ⟨x, hx, hxk⟩, rfl⟩ | ⟨k, ⟨x, hx, hxk⟩, rfl⟩ <;>
    rcases B with rfl | ⟨j, v, rfl⟩ | ⟨j, ⟨y, hy, hyj⟩, rfl⟩ | ⟨j, ⟨y, hy, hyj⟩, rfl⟩ <;> simp at hl hw hat
  · subst hl; exact (hc t u htu x hx y hy).2.2 k |>.2 ⟨hyj, hxk⟩
  · subst hl; exact (hc t u htu x hx y hy).2.2 k |>.1 ⟨hxk, Or.inr hyj⟩
  · subst hl; exact (hc t u htu x hx y hy).2.2 k |>.1 ⟨hxk, Or.inl hyj⟩

/-! ### Every incompatible pair does race -/

/-- Some accesses in a row, without interruption. -/
inductive Reaches : RCode → Registry → RCode → Registry → Prop
  | refl (c : RCode) (r : Registry) : Reaches c r c r
  | step {c c' c'' : RCode} {r r' r'' : Registry} : c.exec r = some (r', c') → Reaches c' r' c'' r'' → Reaches c r c'' r''

theorem Reaches.trans {c c' c'' : RCode} {r r' r'' : Registry} (h : Reaches c r c' r') (h' : Reaches c' r' c'' r'') : Reaches c r c'' r'' := by
  induction h with
  | refl => exact h'
  | step e _ ih => exact Reaches.step e (ih h')

/-- A thread makes these accesses. -/
theorem Reaches.run {c c' : RCode} {r r' : Registry} (h : Reaches c r c' r') : ∀ (s : LtState) (t : Nat), s.reg = r → s.code t = some c →
    ∃ ts s', ltRun s ts = some s' ∧ s'.reg = r' ∧ s'.code t = some c' ∧ s'.todo = s.todo ∧ ∀ u, u ≠ t → s'.code u = s.code u := by
  induction h with
  | refl c r => intro s t hr hc; exact ⟨[], s, rfl, hr, hc, rfl, fun _ _ => rfl⟩
  | @step c c' c'' r r' r'' e _ ih =>
    intro s t hr hc
    have hst : ltStep s t = some { s with reg := r', code := atThread s.code t (some c') } := by
      unfold ltStep; rw [hc]; simp only; rw [hr, e]
    obtain ⟨ts, s', h1, h2, h3, h4, h5⟩ := ih { s with reg := r', code := atThread s.code t (some c') } t rfl (by simp [atThread])
    refine ⟨t :: ts, s', ?_, h2, h3, h4, ?_⟩
    · simp only [ltRun, hst, Option.bind_some]; exact h1
    · intro u hu; rw [h5 u hu]; simp [atThread, hu]

/-- About to store the name of level k. -/
def aboutToStore (k : Int) (c : RCode) : Prop := ∃ l d, c = .writeLevel k l d

/-- About to look at the name of level k. -/
def aboutToLook (k : Int) (c : RCode) : Prop := ∃ d, c = .readLevel k d

theorem index_known {r : Registry} {k : Int} (h : known r k) : regIndex k r = r := by
  unfold regIndex
  split
  · rfl
  · rename_i e; exact absurd e h

theorem reach_assign {r : Registry} {l : Level} {b : Bool} {c : RCode} (h : known r l.value) :
    Reaches (assignCode l b c) r (.writeLevel l.value l.copy c) (regStore l.value b r) := by
  refine .step (r' := r) (c' := .store l.value b (.writeLevel l.value l.copy c)) ?_ (.step rfl (.refl _ _))
  simp only [assignCode, RCode.exec, index_known h]

theorem reach_set {r : Registry} {l : Level} {b : Bool} {c : RCode} (h : known r l.value) :
    Reaches (setCode l b c) r (.writeLevel l.value l.copy c) (regStore l.value b r) := by
  refine .step (r' := r) (c' := assignCode l b c) ?_ (reach_assign h)
  have : (r.find? l.value).isSome = true := Option.isSome_iff_ne_none.2 h
  simp only [setCode, RCode.exec, this, if_true]

theorem reach_set_through {r0 r : Registry} {l : Level} {b : Bool} {c : RCode} (hs : SameTree r0 r) (h : known r l.value) :
    ∃ r', Reaches (setCode l b c) r c r' ∧ SameTree r0 r' :=
  ⟨_, (reach_set h).trans (.step rfl (.refl _ _)), sameTree_level (sameTree_store hs _ _) _ _ rfl⟩

theorem reach_setHighest {r0 : Registry} {t k : Int} {c : RCode} : ∀ (ks : List Int) (r : Registry), SameTree r0 r → (∀ j ∈ ks, known r0 j) →
    k ∈ ks → (∃ c' r', aboutToLook k c' ∧ SameTree r0 r' ∧ Reaches (setHighestCode t c ks) r c' r') ∧
      (∃ c' r', aboutToStore k c' ∧ SameTree r0 r' ∧ Reaches (setHighestCode t c ks) r c' r')
  | [], _, _, _, hk => by cases hk
  | j :: ks, r, hs, hks, hk => by
    have hj : known r j := (hs.known j).2 (hks j (by simp))
    obtain ⟨v, hv⟩ := Option.ne_none_iff_exists'.1 hj
    have hval : v.level.value = j := hs.own j v hv
    have hkv : known r v.level.value := by rw [hval]; exact hj
    by_cases e : k = j
    · subst e
      refine ⟨⟨_, r, ⟨_, rfl⟩, hs, .refl _ _⟩, ?_⟩
      by_cases hlt : k < t
      · refine ⟨.writeLevel k v.level.copy (.advance (setHighestCode t c ks)), regStore k false r, ⟨_, _, rfl⟩, sameTree_store hs _ _, ?_⟩
        refine .step (r' := r) (c' := setCode v.level false (.advance (setHighestCode t c ks))) ?_ ?_
        · simp only [setHighestCode, RCode.exec, hv, Option.map_some, hlt, if_true]
        · have := reach_set (b := false) (c := .advance (setHighestCode t c ks)) hkv; rw [hval] at this; exact this
      · refine ⟨.writeLevel k v.level.copy (.advance (setHighestCode t c ks)), regStore k true r, ⟨_, _, rfl⟩, sameTree_store hs _ _, ?_⟩
        refine .step (r' := r) (c' := setCode v.level true (.advance (setHighestCode t c ks))) ?_ ?_
        · simp only [setHighestCode, RCode.exec, hv, Option.map_some, hlt, if_false]
        · have := reach_set (b := true) (c := .advance (setHighestCode t c ks)) hkv; rw [hval] at this; exact this
    · have hk' : k ∈ ks := by
        rcases List.mem_cons.1 hk with x | x
        · exact absurd x e
        · exact x
      have through : ∃ r', SameTree r0 r' ∧ Reaches (setHighestCode t c (j :: ks)) r (setHighestCode t c ks) r' := by
        by_cases hlt : j < t
        · obtain ⟨r', h1, h2⟩ := reach_set_through (b := false) (c := .advance (setHighestCode t c ks)) hs hkv
          refine ⟨r', h2, ?_⟩
          refine .step (r' := r) (c' := setCode v.level false (.advance (setHighestCode t c ks))) ?_ (h1.trans (.step rfl (.refl _ _)))
          simp only [setHighestCode, RCode.exec, hv, Option.map_some, hlt, if_true]
        · obtain ⟨r', h1, h2⟩ := reach_set_through (b := true) (c := .advance (setHighestCode t c ks)) hs hkv
          refine ⟨r', h2, ?_⟩
          refine .step (r' := r) (c' := setCode v.level true (.advance (setHighestCode t c ks))) ?_ (h1.trans (.step rfl (.refl _ _)))
          simp only [setHighestCode, RCode.exec, hv, Option.map_some, hlt, if_false]
      obtain ⟨r', h1, h2⟩ := through
      obtain ⟨⟨c1, r1, a1, a2, a3⟩, ⟨c2, r2, b1, b2, b3⟩⟩ := reach_setHighest (t := t) (c := c) ks r' h1 (fun j hj => hks j (List.mem_cons_of_mem _ hj)) hk'
      exact ⟨⟨c1, r1, a1, a2, h2.trans a3⟩, ⟨c2, r2, b1, b2, h2.trans b3⟩⟩

theorem reach_copyAll {r0 r : Registry} {k : Int} (hs : SameTree r0 r) : ∀ (ks : List Int) (acc : Registry), (∀ j ∈ ks, known r0 j) → k ∈ ks →
    ∃ c', aboutToLook k c' ∧ Reaches (copyAllCode ks acc) r c' r
  | [], _, _, hk => by cases hk
  | j :: ks, acc, hks, hk => by
    by_cases e : k = j
    · subst e
      exact ⟨_, ⟨_, rfl⟩, .step rfl (.refl _ _)⟩
    · have hk' : k ∈ ks := by
        rcases List.mem_cons.1 hk with x | x
        · exact absurd x e
        · exact x
      have hj : known r j := (hs.known j).2 (hks j (by simp))
      obtain ⟨v, hv⟩ := Option.ne_none_iff_exists'.1 hj
      obtain ⟨c', h1, h2⟩ := reach_copyAll hs ks (acc ++ [(j, ⟨regStatus j r, v.level.copy⟩)]) (fun j hj => hks j (List.mem_cons_of_mem _ hj)) hk'
      refine ⟨c', h1, .step rfl (.step (r' := r) (c' := .advance (copyAllCode ks (acc ++ [(j, ⟨regStatus j r, v.level.copy⟩)]))) ?_ (.step rfl h2))⟩
      simp only [RCode.exec, hv, Option.map_some]

theorem known_mem {r : Registry} {k : Int} (h : known r k) : k ∈ r.map Prod.fst := (mem_keys r k).2 h

theorem reach_store {r0 r : Registry} (hs : SameTree r0 r) {a : RegCall} {k : Int} (hn : ¬ reshapes (known r0) a) (h : storesName (known r0) k a) :
    ∃ c' r', aboutToStore k c' ∧ SameTree r0 r' ∧ Reaches (callCode a) r c' r' := by
  have nn : ∀ {j}, ¬¬ known r0 j → known r j := fun h => (hs.known _).2 (Classical.not_not.1 h)
  cases a with
  | getAll => exact absurd h id
  | op o =>
    cases o with
    | add l b => obtain rfl : k = l.value := h; exact ⟨_, _, ⟨_, _, rfl⟩, sameTree_store hs _ _, reach_assign (nn hn)⟩
    | add1 l => obtain rfl : k = l.value := h; exact ⟨_, _, ⟨_, _, rfl⟩, sameTree_store hs _ _, reach_assign (nn hn)⟩
    | set l b => obtain ⟨rfl, hk⟩ := h; exact ⟨_, _, ⟨_, _, rfl⟩, sameTree_store hs _ _, reach_set ((hs.known _).2 hk)⟩
    | disable l => obtain ⟨rfl, hk⟩ := h; exact ⟨_, _, ⟨_, _, rfl⟩, sameTree_store hs _ _, reach_set ((hs.known _).2 hk)⟩
    | enable l => obtain ⟨rfl, hk⟩ := h; exact ⟨_, _, ⟨_, _, rfl⟩, sameTree_store hs _ _, reach_set ((hs.known _).2 hk)⟩
    | setHighest l =>
      obtain ⟨h1, h2⟩ := h
      have hl : (r.find? l.value).isSome = true := Option.isSome_iff_ne_none.2 ((hs.known _).2 h1)
      obtain ⟨_, ⟨c', r', a1, a2, a3⟩⟩ := reach_setHighest (t := l.value) (c := .ret (.out .unit)) (r.map Prod.fst) r hs
        (fun j hj => (hs.known j).1 (known_fst hj)) (known_mem ((hs.known k).2 h2))
      refine ⟨c', r', a1, a2, .step (r' := r) (c' := .keys fun ks => setHighestCode l.value (.ret (.out .unit)) ks) ?_ (.step rfl a3)⟩
      simp only [callCode, RCode.exec, hl, if_true]
    | reset => exact absurd h id
    | disableAll => exact absurd h id
    | enableAll => exact absurd h id
    | getStatus l => exact absurd h id
    | logLevel l => exact absurd h id

theorem reach_look {r0 r : Registry} (hs : SameTree r0 r) {a : RegCall} {k : Int} (h : looksAtName (known r0) k a) :
    ∃ c' r', aboutToLook k c' ∧ SameTree r0 r' ∧ Reaches (callCode a) r c' r' := by
  cases a with
  | getAll =>
    obtain ⟨c', h1, h2⟩ := reach_copyAll hs (r.map Prod.fst) [] (fun j hj => (hs.known j).1 (known_fst hj)) (known_mem ((hs.known k).2 h))
    exact ⟨c', r, h1, hs, .step rfl h2⟩
  | op o =>
    cases o with
    | setHighest l =>
      obtain ⟨h1, h2⟩ := h
      have hl : (r.find? l.value).isSome = true := Option.isSome_iff_ne_none.2 ((hs.known _).2 h1)
      obtain ⟨⟨c', r', a1, a2, a3⟩, _⟩ := reach_setHighest (t := l.value) (c := .ret (.out .unit)) (r.map Prod.fst) r hs
        (fun j hj => (hs.known j).1 (known_fst hj)) (known_mem ((hs.known k).2 h2))
      refine ⟨c', r', a1, a2, .step (r' := r) (c' := .keys fun ks => setHighestCode l.value (.ret (.out .unit)) ks) ?_ (.step rfl a3)⟩
      simp only [callCode, RCode.exec, hl, if_true]
    | _ => exact absurd h id

/-- Two threads with one call each. -/
def twoCalls (a b : RegCall) : Nat → List RegCall
  | 0 => [a]
  | 1 => [b]
  | _ => []

/-- Both calls have begun. -/
def bothBegun (r : Registry) (a b : RegCall) : LtState :=
  { reg := r, code := atThread (atThread (fun _ => none) 0 (some (callCode a))) 1 (some (callCode b)),
    todo := atThread (atThread (twoCalls a b) 0 []) 1 [], outs := fun _ => [] }

theorem bothBegun_run (r : Registry) (a b : RegCall) : ltRun (LtState.start r (twoCalls a b)) [0, 1] = some (bothBegun r a b) := rfl

theorem ltRun_append : ∀ (ts us : List Nat) (s : LtState), ltRun s (ts ++ us) = (ltRun s ts).bind (ltRun · us)
  | [], _, _ => rfl
  | t :: ts, us, s => by
    simp only [List.cons_append, ltRun]
    cases ltStep s t with
    | none => rfl
    | some m => exact ltRun_append ts us m

/-- Both threads can come to any two places they reach one after the other. -/
theorem bothReach {r r1 r2 : Registry} {a b : RegCall} {c d : RCode} (ha : Reaches (callCode a) r c r1) (hb : Reaches (callCode b) r1 d r2) :
    ∃ ts s, ltRun (LtState.start r (twoCalls a b)) ts = some s ∧ s.reg = r2 ∧ s.code 0 = some c ∧ s.code 1 = some d := by
  obtain ⟨ts1, s1, e1, g1, g2, _, g4⟩ := ha.run (bothBegun r a b) 0 rfl rfl
  have h1 : s1.code 1 = some (callCode b) := by rw [g4 1 (by decide)]; rfl
  obtain ⟨ts2, s2, e2, k1, k2, _, k4⟩ := hb.run s1 1 g1 h1
  refine ⟨[0, 1] ++ (ts1 ++ ts2), s2, ?_, k1, ?_, k2⟩
  · rw [ltRun_append, bothBegun_run, Option.bind_some, ltRun_append, e1, Option.bind_some, e2]
  · rw [k4 0 (by decide)]; exact g2

theorem reshapes_access {r : Registry} {a : RegCall} (h : reshapes (known r) a) :
    ∃ l, (callCode a).access r = some (l, true, false) ∧ (l = .tree ∨ l = .everything) := by
  have hn : ∀ {k}, ¬ known r k → (r.find? k).isNone = true := fun {k} h => by
    cases hf : r.find? k with
    | none => rfl
    | some v => exact absurd (show known r k from fun e => by rw [hf] at e; cases e) h
  cases a with
  | getAll => exact absurd h id
  | op o =>
    cases o with
    | add l b => exact ⟨.tree, by simp only [callCode, assignCode, RCode.access, hn h], Or.inl rfl⟩
    | add1 l => exact ⟨.tree, by simp only [callCode, assignCode, RCode.access, hn h], Or.inl rfl⟩
    | reset => exact ⟨.everything, rfl, Or.inr rfl⟩
    | logLevel l => exact ⟨.tree, by simp only [callCode, RCode.access, hn h], Or.inl rfl⟩
    | _ => exact absurd h id

theorem first_access (r : Registry) (b : RegCall) : ∃ l w, (callCode b).access r = some (l, w, false) ∧ (l = .tree ∨ l = .everything) := by
  cases b with
  | getAll => exact ⟨_, _, rfl, Or.inl rfl⟩
  | op o => cases o <;> first | exact ⟨_, _, rfl, Or.inl rfl⟩ | exact ⟨_, _, rfl, Or.inr rfl⟩

theorem race_of {s : LtState} {c d : RCode} (hc : s.code 0 = some c) (hd : s.code 1 = some d) {a b : RLoc × Bool × Bool}
    (ha : c.access s.reg = some a) (hb : d.access s.reg = some b) (h : RConflict a b) : RRace s :=
  ⟨0, 1, c, d, a, b, by decide, hc, hd, ha, hb, h⟩

/-- C77, exact: two calls made at the same time by two threads can race if and only if they are not compatible. -/
theorem C77_exact (r : Registry) (hown : Own r) (a b : RegCall) :
    (∃ ts s, ltRun (LtState.start r (twoCalls a b)) ts = some s ∧ RRace s) ↔ ¬ Compatible (known r) a b := by
  constructor
  · rintro ⟨ts, s, hr, hrace⟩ hc
    refine C77_no_race_partial r hown (twoCalls a b) ?_ ?_ ts s hr hrace
    · intro t x hx
      match t with
      | 0 => rw [List.mem_singleton.1 hx]; exact hc.1
      | 1 => rw [List.mem_singleton.1 hx]; exact hc.2.1
      | _ + 2 => cases hx
    · intro t u htu x hx y hy
      match t, u with
      | 0, 0 => exact absurd rfl htu
      | 1, 1 => exact absurd rfl htu
      | 0, 1 => rw [List.mem_singleton.1 hx, List.mem_singleton.1 hy]; exact hc
      | 1, 0 =>
        rw [List.mem_singleton.1 hx, List.mem_singleton.1 hy]
        obtain ⟨h1, h2, h3⟩ := hc
        refine ⟨h2, h1, fun k => ⟨?_, ?_⟩⟩
        · rintro ⟨x1, x2 | x2⟩
          · exact (h3 k).1 ⟨x2, Or.inl x1⟩
          · exact (h3 k).2 ⟨x1, x2⟩
        · rintro ⟨x1, x2⟩; exact (h3 k).1 ⟨x1, Or.inr x2⟩
      | 0, _ + 2 => cases hy
      | 1, _ + 2 => cases hy
      | _ + 2, _ => cases hx
  · intro hc
    by_cases h1 : reshapes (known r) a
    · obtain ⟨l, e1, e2⟩ := reshapes_access h1
      obtain ⟨m, w, e3, e4⟩ := first_access r b
      refine ⟨[0, 1], _, bothBegun_run r a b, race_of (c := callCode a) (d := callCode b) rfl rfl e1 e3 ⟨?_, Or.inl rfl, by simp⟩⟩
      rcases e2 with rfl | rfl <;> rcases e4 with rfl | rfl <;> simp
    by_cases h2 : reshapes (known r) b
    · obtain ⟨l, e1, e2⟩ := reshapes_access h2
      obtain ⟨m, w, e3, e4⟩ := first_access r a
      refine ⟨[0, 1], _, bothBegun_run r a b, race_of (c := callCode a) (d := callCode b) rfl rfl e3 e1 ⟨?_, Or.inr rfl, by simp⟩⟩
      rcases e2 with rfl | rfl <;> rcases e4 with rfl | rfl <;> simp
    have : ∃ k, (storesName (known r) k a ∧ (storesName (known r) k b ∨ looksAtName (known r) k b)) ∨
        (storesName (known r) k b ∧ looksAtName (known r) k a) := by
      refine Classical.byContradiction fun hno => hc ⟨h1, h2, fun k => ⟨fun x => hno ⟨k, Or.inl x⟩, fun x => hno ⟨k, Or.inr x⟩⟩⟩
    have hs : SameTree r r := ⟨rfl, hown⟩
    obtain ⟨k, ⟨x, y | y⟩ | ⟨x, y⟩⟩ := this
    · obtain ⟨c, r1, ⟨l, d, rfl⟩, s1, p1⟩ := reach_store hs h1 x
      obtain ⟨c', r2, ⟨l', d', rfl⟩, s2, p2⟩ := reach_store s1 h2 y
      obtain ⟨ts, s, q1, q2, q3, q4⟩ := bothReach p1 p2
      exact ⟨ts, s, q1, race_of q3 q4 rfl rfl ⟨Or.inl rfl, Or.inl rfl, by simp⟩⟩
    · obtain ⟨c, r1, ⟨l, d, rfl⟩, s1, p1⟩ := reach_store hs h1 x
      obtain ⟨c', r2, ⟨d', rfl⟩, s2, p2⟩ := reach_look s1 y
      obtain ⟨ts, s, q1, q2, q3, q4⟩ := bothReach p1 p2
      exact ⟨ts, s, q1, race_of q3 q4 rfl rfl ⟨Or.inl rfl, Or.inl rfl, by simp⟩⟩
    · obtain ⟨c, r1, ⟨d, rfl⟩, s1, p1⟩ := reach_look hs y
      obtain ⟨c', r2, ⟨l', d', rfl⟩, s2, p2⟩ := reach_store s1 h2 x
      obtain ⟨ts, s, q1, q2, q3, q4⟩ := bothReach p1 p2
      exact ⟨ts, s, q1, race_of q3 q4 rfl rfl ⟨Or.inl rfl, Or.inr rfl, by simp⟩⟩

theorem own_default : Own defaultLevels := by
  intro k v h
  simp only [defaultLevels, find?] at h
  split at h
  · cases h; rename_i e; exact e.symm
  split at h
  · cases h; rename_i e; exact e.symm
  split at h
  · cases h; rename_i e; exact e.symm
  split at h
  · cases h; rename_i e; exact e.symm
  · cases h

/-- C77 fails: two threads that only LOG, one of them at a level that was never registered. -/
theorem C77_negation (l : Level) (hl : ¬ known defaultLevels l.value) :
    ∃ ts s, ltRun (LtState.start defaultLevels (twoCalls (.op (.logLevel INFO)) (.op (.logLevel l)))) ts = some s ∧ RRace s :=
  (C77_exact _ own_default _ _).2 fun h => h.2.1 hl

/-- C77 fails: two threads that switch the same level; one that switches a level while another lists the levels. -/
theorem C77_negation_switch (l m : Level) (b c : Bool) (hl : known defaultLevels l.value) (hm : m.value = l.value) :
    (∃ ts s, ltRun (LtState.start defaultLevels (twoCalls (.op (.set l b)) (.op (.set m c)))) ts = some s ∧ RRace s) ∧
    (∃ ts s, ltRun (LtState.start defaultLevels (twoCalls (.op (.set l b)) .getAll)) ts = some s ∧ RRace s) :=
  ⟨(C77_exact _ own_default _ _).2 fun h => (h.2.2 l.value).1 ⟨⟨rfl, hl⟩, Or.inl ⟨hm.symm, hl⟩⟩,
   (C77_exact _ own_default _ _).2 fun h => (h.2.2 l.value).1 ⟨⟨rfl, hl⟩, Or.inr hl⟩⟩

/-- C77, what LOG can rely on: LOG at registered levels on any number of threads, while one thread switches levels in any way: no data race. -/
theorem C77_log_partial (r0 : Registry) (hown : Own r0) (calls : Nat → List RegCall) (u : Nat)
    (hu : ∀ a ∈ calls u, ¬ reshapes (known r0) a)
    (hl : ∀ t, t ≠ u → ∀ a ∈ calls t, ∃ l, a = .op (.logLevel l) ∧ known r0 l.value)
    (ts : List Nat) (s : LtState) (hr : ltRun (LtState.start r0 calls) ts = some s) : ¬ RRace s := by
  have hn : ∀ t, ∀ a ∈ calls t, ¬ reshapes (known r0) a := by
    intro t a ha
    by_cases e : t = u
    · rw [e] at ha; exact hu a ha
    · obtain ⟨l, rfl, hk⟩ := hl t e a ha
      exact fun x => x hk
  refine C77_no_race_partial r0 hown calls hn ?_ ts s hr
  intro t v htv a ha b hb
  refine ⟨hn t a ha, hn v b hb, fun k => ?_⟩
  by_cases e : t = u
  · obtain ⟨l, rfl, hk⟩ := hl v (fun x => htv (e.trans x.symm)) b hb
    exact ⟨fun ⟨_, y⟩ => y.elim id id, fun ⟨y, _⟩ => y⟩
  · obtain ⟨l, rfl, hk⟩ := hl t e a ha
    exact ⟨fun ⟨y, _⟩ => y, fun ⟨_, y⟩ => y⟩

/-! ### What the threads see -/

/-- The program never stores to the status of level k. -/
def KeepsStatus (r : Registry) (k : Int) : RCode → Prop
  | .ret _ => True
  | .find j c => KeepsStatus r k (c (r.find? j).isSome)
  | .keys c => KeepsStatus r k (c (r.map Prod.fst))
  | .advance c => KeepsStatus r k c
  | .index _ c => KeepsStatus r k c
  | .replace _ => False
  | .load _ c => ∀ b, KeepsStatus r k (c b)
  | .store j _ c => j ≠ k ∧ KeepsStatus r k c
  | .readLevel _ c => ∀ l, KeepsStatus r k (c l)
  | .writeLevel _ _ c => KeepsStatus r k c

theorem keeps_copyAll {r : Registry} {k : Int} : ∀ (ks : List Int) (acc : Registry), KeepsStatus r k (copyAllCode ks acc)
  | [], _ => trivial
  | j :: ks, acc => by
    intro b l
    cases l with
    | none => exact keeps_copyAll ks acc
    | some l => exact keeps_copyAll ks _

theorem keeps_call {r : Registry} {k : Int} {c : RegCall} (h : ¬ switches (known r) k c) : KeepsStatus r k (callCode c) := by
  have hset : ∀ (l : Level) (b : Bool), ¬ k = l.value → KeepsStatus r k (setCode l b (.ret (.out .unit))) := by
    intro l b hk
    show KeepsStatus r k (if (r.find? l.value).isSome = true then _ else _)
    split
    · exact ⟨fun e => hk e.symm, trivial⟩
    · trivial
  cases c with
  | getAll => exact keeps_copyAll _ _
  | op o =>
    cases o with
    | add l b => exact ⟨fun e => h e.symm, trivial⟩
    | add1 l => exact ⟨fun e => h e.symm, trivial⟩
    | reset => exact h trivial
    | setHighest l =>
      show KeepsStatus r k (if (r.find? l.value).isSome = true then _ else _)
      split
      · rename_i e; exact absurd (Option.isSome_iff_ne_none.1 e) h
      · trivial
    | set l b => exact hset l b h
    | disable l => exact hset l _ h
    | enable l => exact hset l _ h
    | disableAll => exact absurd trivial h
    | enableAll => exact absurd trivial h
    | getStatus l =>
      show KeepsStatus r k (if (r.find? l.value).isSome = true then _ else _)
      split
      · intro b; trivial
      · trivial
    | logLevel l => exact fun _ => trivial

theorem regStatus_store (k j : Int) (b : Bool) (r : Registry) (h : j ≠ k) : regStatus k (regStore j b r) = regStatus k r := by
  unfold regStatus
  rw [find?_regStore]
  cases r.find? k with
  | none => rfl
  | some v => simp only [Option.map_some, if_neg (fun e : k = j => h e.symm)]

theorem regStatus_level (k j : Int) (l : Level) (r : Registry) : regStatus k (regLevel j l r) = regStatus k r := by
  unfold regStatus
  rw [find?_regLevel]
  cases r.find? k with
  | none => rfl
  | some v => simp only [Option.map_some]; split <;> rfl

theorem keeps_exec {r0 r r' : Registry} {W R : Int → Prop} {k : Int} {c c' : RCode} (h : SameTree r0 r) (hs : Stays r0 W R c) (hk : KeepsStatus r0 k c)
    (he : c.exec r = some (r', c')) : KeepsStatus r0 k c' ∧ regStatus k r' = regStatus k r := by
  cases c with
  | ret o => cases he
  | find j c => cases he; rw [h.find]; exact ⟨hk, rfl⟩
  | keys c => cases he; rw [h.keys]; exact ⟨hk, rfl⟩
  | advance c => cases he; exact ⟨hk, rfl⟩
  | index j c => cases he; rw [index_known ((h.known j).2 hs.1)]; exact ⟨hk, rfl⟩
  | replace c => exact absurd hk id
  | load j c => cases he; exact ⟨hk _, rfl⟩
  | store j b c => cases he; exact ⟨hk.2, regStatus_store k j b r hk.1⟩
  | readLevel j c => cases he; exact ⟨hk _, rfl⟩
  | writeLevel j l c => cases he; exact ⟨hk, regStatus_level k j l r⟩

/-- Where a thread that only makes LOG calls at level k is, when that level has the status b. -/
inductive LogAt (k : Int) (b : Bool) : Option RCode → Nat → Prop
  | idle : LogAt k b none 0
  | begun (l : Level) : l.value = k → LogAt k b (some (callCode (.op (.logLevel l)))) 1
  | found : LogAt k b (some (.load k fun b => .ret (.out (.bool b)))) 1
  | known : LogAt k b (some (.ret (.out (.bool b)))) 1

/-- Invariant: nobody switches level k, and thread t logs at it. -/
structure Undisturbed (r0 : Registry) (calls : Nat → List RegCall) (k : Int) (b : Bool) (t : Nat) (s : LtState) : Prop where
  good : RGood r0 calls s
  keeps : ∀ u c, s.code u = some c → KeepsStatus r0 k c
  status : regStatus k s.reg = b
  logs : ∃ n m, LogAt k b (s.code t) m ∧ s.outs t = List.replicate n (.out (.bool b)) ∧ n + m + (s.todo t).length = (calls t).length

theorem undisturbed_step {r0 : Registry} {calls : Nat → List RegCall} {k : Int} {b : Bool} {t : Nat}
    (hn : ∀ u, ∀ a ∈ calls u, ¬ reshapes (known r0) a) (hw : ∀ u, ∀ a ∈ calls u, ¬ switches (known r0) k a)
    (hl : ∀ a ∈ calls t, ∃ l, a = .op (.logLevel l) ∧ l.value = k) {s s' : LtState} {u : Nat}
    (h : Undisturbed r0 calls k b t s) (hs : ltStep s u = some s') : Undisturbed r0 calls k b t s' := by
  have hg := rGood_step hn h.good hs
  obtain ⟨n, m, hat, hout, hcount⟩ := h.logs
  unfold ltStep at hs
  split at hs
  · rename_i hcu
    split at hs
    · cases hs
    · rename_i c cs hd
      cases hs
      have hm := h.good.todo u c (by rw [hd]; simp)
      refine ⟨hg, ?_, h.status, ?_⟩
      · intro v x hx
        simp only [atThread] at hx
        split at hx
        · cases hx; exact keeps_call (hw u c hm)
        · exact h.keeps v x hx
      · by_cases e : t = u
        · subst e
          obtain ⟨l, rfl, hlk⟩ := hl c hm
          rw [hcu] at hat
          cases hat
          refine ⟨n, 1, ?_, ?_, ?_⟩
          · simp only [atThread, if_true]; exact .begun l hlk
          · exact hout
          · simp only [atThread, if_true]; rw [hd] at hcount; simp only [List.length_cons] at hcount; omega
        · refine ⟨n, m, ?_, hout, ?_⟩
          · simp only [atThread, if_neg e]; exact hat
          · simp only [atThread, if_neg e]; exact hcount
  · rename_i c hcu
    split at hs
    · rename_i r' c' he
      cases hs
      obtain ⟨q1, q2⟩ := keeps_exec h.good.tree (h.good.code u c hcu) (h.keeps u c hcu) he
      refine ⟨hg, ?_, q2.trans h.status, ?_⟩
      · intro v x hx
        simp only [atThread] at hx
        split at hx
        · cases hx; exact q1
        · exact h.keeps v x hx
      · by_cases e : t = u
        · subst e
          rw [hcu] at hat
          simp only [atThread, if_true]
          cases hat with
          | begun l hlk => cases he; subst hlk; exact ⟨n, 1, .found, hout, hcount⟩
          | found => cases he; rw [h.status]; exact ⟨n, 1, .known, hout, hcount⟩
          | known => cases he
        · refine ⟨n, m, ?_, hout, hcount⟩
          simp only [atThread, if_neg e]; exact hat
    · rename_i he
      cases hs
      refine ⟨hg, ?_, h.status, ?_⟩
      · intro v x hx
        simp only [atThread] at hx
        split at hx
        · cases hx
        · exact h.keeps v x hx
      · by_cases e : t = u
        · subst e
          rw [hcu] at hat
          simp only [atThread, if_true]
          cases hat with
          | begun l hlk => cases he
          | found => cases he
          | known =>
            refine ⟨n + 1, 0, .idle, ?_, by omega⟩
            rw [hout, List.replicate_succ']; rfl
        · refine ⟨n, m, ?_, ?_, hcount⟩
          · simp only [atThread, if_neg e]; exact hat
          · simp only [atThread, if_neg e]; exact hout

theorem undisturbed_run {r0 : Registry} {calls : Nat → List RegCall} {k : Int} {b : Bool} {t : Nat}
    (hn : ∀ u, ∀ a ∈ calls u, ¬ reshapes (known r0) a) (hw : ∀ u, ∀ a ∈ calls u, ¬ switches (known r0) k a)
    (hl : ∀ a ∈ calls t, ∃ l, a = .op (.logLevel l) ∧ l.value = k) :
    ∀ (ts : List Nat) (s s' : LtState), Undisturbed r0 calls k b t s → ltRun s ts = some s' → Undisturbed r0 calls k b t s'
  | [], s, s', h, hr => by cases hr; exact h
  | v :: ts, s, s', h, hr => by
    simp only [ltRun] at hr
    cases hs : ltStep s v with
    | none => rw [hs] at hr; cases hr
    | some m => rw [hs] at hr; exact undisturbed_run hn hw hl ts m s' (undisturbed_step hn hw hl h hs) hr

/-- C77, under every schedule: while other threads switch other levels, every LOG at the registered level k is decided by the status that level has. (Even where those
threads race for names with each other.) -/
theorem C77_undisturbed_partial (r0 : Registry) (hown : Own r0) (calls : Nat → List RegCall) (k : Int) (v : LoggingLevel) (hv : r0.find? k = some v) (t : Nat)
    (hn : ∀ u, ∀ a ∈ calls u, ¬ reshapes (known r0) a) (hw : ∀ u, ∀ a ∈ calls u, ¬ switches (known r0) k a)
    (hl : ∀ a ∈ calls t, ∃ l, a = .op (.logLevel l) ∧ l.value = k)
    (ts : List Nat) (s : LtState) (hr : ltRun (LtState.start r0 calls) ts = some s) (hd : s.code t = none) :
    s.outs t = List.replicate ((calls t).length - (s.todo t).length) (.out (.bool v.status)) := by
  have h := undisturbed_run (b := v.status) hn hw hl ts _ s
    ⟨rGood_start hown calls, fun u c h => (by cases h), (by show regStatus k r0 = v.status; rw [regStatus, hv]), ⟨0, 0, .idle, rfl, by simp [LtState.start]⟩⟩ hr
  obtain ⟨n, m, hat, hout, hcount⟩ := h.logs
  rw [hd] at hat
  cases hat
  rw [hout]
  congr 1
  omega

/-! ### One thread switches levels, the others LOG -/

/-- The call only asks. -/
def onlyAsks (r : Registry) (c : RegCall) : Prop :=
  (∃ l, c = .op (.logLevel l) ∧ known r l.value) ∨ (∃ l, c = .op (.getStatus l)) ∨ c = .getAll

/-- The program changes nothing. -/
def Asks (r : Registry) : RCode → Prop
  | .ret _ => True
  | .find j c => Asks r (c (r.find? j).isSome)
  | .keys c => Asks r (c (r.map Prod.fst))
  | .advance c => Asks r c
  | .index j c => known r j ∧ Asks r c
  | .replace _ => False
  | .load _ c => ∀ b, Asks r (c b)
  | .store _ _ _ => False
  | .readLevel _ c => ∀ l, Asks r (c l)
  | .writeLevel _ _ _ => False

theorem asks_copyAll {r : Registry} : ∀ (ks : List Int) (acc : Registry), Asks r (copyAllCode ks acc)
  | [], _ => trivial
  | j :: ks, acc => by
    intro b l
    cases l with
    | none => exact asks_copyAll ks acc
    | some l => exact asks_copyAll ks _

theorem asks_call {r : Registry} {c : RegCall} (h : onlyAsks r c) : Asks r (callCode c) := by
  rcases h with ⟨l, rfl, hk⟩ | ⟨l, rfl⟩ | rfl
  · exact ⟨hk, fun _ => trivial⟩
  · show Asks r (if (r.find? l.value).isSome = true then _ else _)
    split
    · intro b; trivial
    · trivial
  · exact asks_copyAll _ _

theorem asks_exec {r0 r r' : Registry} {c c' : RCode} (h : SameTree r0 r) (hk : Asks r0 c) (he : c.exec r = some (r', c')) :
    Asks r0 c' ∧ r' = r := by
  cases c with
  | ret o => cases he
  | find j c => cases he; rw [h.find]; exact ⟨hk, rfl⟩
  | keys c => cases he; rw [h.keys]; exact ⟨hk, rfl⟩
  | advance c => cases he; exact ⟨hk, rfl⟩
  | index j c => cases he; exact ⟨hk.2, index_known ((h.known j).2 hk.1)⟩
  | replace c => exact absurd hk id
  | load j c => cases he; exact ⟨hk _, rfl⟩
  | store j b c => exact absurd hk id
  | readLevel j c => cases he; exact ⟨hk _, rfl⟩
  | writeLevel j l c => exact absurd hk id

/-- Invariant: thread u has made the calls `done`, may be in the middle of one, and has `rest` before it; the others only ask. -/
structure OneChanger (r0 : Registry) (calls : Nat → List RegCall) (u : Nat) (ops : List LevelOp) (s : LtState) : Prop where
  good : RGood r0 calls s
  asks : ∀ t, t ≠ u → ∀ c, s.code t = some c → Asks r0 c
  idle : s.code u = none → ∃ pre rest, ops = pre ++ rest ∧ s.todo u = rest.map .op ∧ s.reg = (levelRun r0 pre).2 ∧
    s.outs u = (levelRun r0 pre).1.map .out
  busy : ∀ c, s.code u = some c → ∃ pre o rest, ops = pre ++ o :: rest ∧ s.todo u = rest.map .op ∧
    soloRun c s.reg = (.out (levelStep (levelRun r0 pre).2 o).1, (levelStep (levelRun r0 pre).2 o).2) ∧ s.outs u = (levelRun r0 pre).1.map .out

theorem ltLevelRun_snoc : ∀ (os : List LevelOp) (r : Registry) (o : LevelOp),
    levelRun r (os ++ [o]) = ((levelRun r os).1 ++ [(levelStep (levelRun r os).2 o).1], (levelStep (levelRun r os).2 o).2)
  | [], r, o => rfl
  | a :: os, r, o => by
    simp only [List.cons_append, levelRun]
    rw [ltLevelRun_snoc os]

theorem sorted_levelRun : ∀ (os : List LevelOp) (r : Registry), RegInv r → (levelRun r os).2.Sorted := by
  intro os
  induction os with
  | nil => intro r h; exact h.sorted
  | cons o os ih => intro r h; exact ih _ (regInv_step r h o)

theorem exec_none {c : RCode} {r : Registry} (h : c.exec r = none) : ∃ o, c = .ret o := by
  cases c <;> first | exact ⟨_, rfl⟩ | cases h

theorem oneChanger_step {r0 : Registry} {calls : Nat → List RegCall} {u : Nat} {ops : List LevelOp} (hinv : RegInv r0)
    (hn : ∀ t, ∀ a ∈ calls t, ¬ reshapes (known r0) a) (ha : ∀ t, t ≠ u → ∀ a ∈ calls t, onlyAsks r0 a)
    {s s' : LtState} {t : Nat} (h : OneChanger r0 calls u ops s) (hs : ltStep s t = some s') : OneChanger r0 calls u ops s' := by
  have hg := rGood_step hn h.good hs
  unfold ltStep at hs
  by_cases e : t = u
  · subst e
    split at hs
    · rename_i hc
      obtain ⟨pre, rest, e1, e2, e3, e4⟩ := h.idle hc
      split at hs
      · cases hs
      · rename_i c cs hd
        cases hs
        rw [e2] at hd
        cases rest with
        | nil => cases hd
        | cons o rest =>
          simp only [List.map_cons, List.cons.injEq] at hd
          obtain ⟨rfl, rfl⟩ := hd
          refine ⟨hg, ?_, ?_, ?_⟩
          · intro v hv c hc
            simp only [atThread, if_neg hv] at hc
            exact h.asks v hv c hc
          · intro x; simp [atThread] at x
          · intro c hc
            simp only [atThread, if_true, Option.some.injEq] at hc
            subst hc
            refine ⟨pre, o, rest, e1, by simp [atThread], ?_, e4⟩
            show soloRun _ s.reg = _
            rw [e3]
            exact C77_alone _ (sorted_levelRun pre r0 hinv) o
    · rename_i c hc
      obtain ⟨pre, o, rest, e1, e2, e3, e4⟩ := h.busy c hc
      split at hs
      · rename_i r' c' he
        cases hs
        refine ⟨hg, ?_, ?_, ?_⟩
        · intro v hv c hc
          simp only [atThread, if_neg hv] at hc
          exact h.asks v hv c hc
        · intro x; simp [atThread] at x
        · intro x hx
          simp only [atThread, if_true, Option.some.injEq] at hx
          subst hx
          exact ⟨pre, o, rest, e1, e2, by rw [← soloRun_exec he]; exact e3, e4⟩
      · rename_i he
        cases hs
        obtain ⟨w, rfl⟩ := exec_none he
        simp only [soloRun, Prod.mk.injEq] at e3
        refine ⟨hg, ?_, ?_, ?_⟩
        · intro v hv c hc
          simp only [atThread, if_neg hv] at hc
          exact h.asks v hv c hc
        · intro _
          refine ⟨pre ++ [o], rest, by rw [e1]; simp, e2, ?_, ?_⟩
          · rw [ltLevelRun_snoc]; exact e3.2
          · rw [ltLevelRun_snoc]; simp only [atThread, if_true, RCode.result, List.map_append, List.map_cons, List.map_nil, e4, e3.1]
        · intro x hx; simp [atThread] at hx
  · have hsame : s'.reg = s.reg ∧ s'.code u = s.code u ∧ s'.todo u = s.todo u ∧ s'.outs u = s.outs u ∧
        ∀ v, v ≠ u → ∀ c, s'.code v = some c → Asks r0 c := by
      have e' : ¬ u = t := fun x => e x.symm
      split at hs
      · split at hs
        · cases hs
        · rename_i c cs hd
          cases hs
          refine ⟨rfl, by simp [atThread, e'], by simp [atThread, e'], rfl, ?_⟩
          intro v hv x hx
          simp only [atThread] at hx
          split at hx
          · cases hx; exact asks_call (ha t e c (h.good.todo t c (by rw [hd]; simp)))
          · exact h.asks v hv x hx
      · rename_i c hc
        split at hs
        · rename_i r' c' he
          cases hs
          obtain ⟨q1, q2⟩ := asks_exec h.good.tree (h.asks t e c hc) he
          refine ⟨q2, by simp [atThread, e'], rfl, rfl, ?_⟩
          intro v hv x hx
          simp only [atThread] at hx
          split at hx
          · cases hx; exact q1
          · exact h.asks v hv x hx
        · cases hs
          refine ⟨rfl, by simp [atThread, e'], rfl, by simp [atThread, e'], ?_⟩
          intro v hv x hx
          simp only [atThread] at hx
          split at hx
          · cases hx
          · exact h.asks v hv x hx
    obtain ⟨q1, q2, q3, q4, q5⟩ := hsame
    refine ⟨hg, q5, ?_, ?_⟩
    · rw [q2, q1, q3, q4]; exact h.idle
    · rw [q2, q1, q3, q4]; exact h.busy

theorem oneChanger_run {r0 : Registry} {calls : Nat → List RegCall} {u : Nat} {ops : List LevelOp} (hinv : RegInv r0)
    (hn : ∀ t, ∀ a ∈ calls t, ¬ reshapes (known r0) a) (ha : ∀ t, t ≠ u → ∀ a ∈ calls t, onlyAsks r0 a) :
    ∀ (ts : List Nat) (s s' : LtState), OneChanger r0 calls u ops s → ltRun s ts = some s' → OneChanger r0 calls u ops s'
  | [], s, s', h, hr => by cases hr; exact h
  | v :: ts, s, s', h, hr => by
    simp only [ltRun] at hr
    cases hs : ltStep s v with
    | none => rw [hs] at hr; cases hr
    | some m => rw [hs] at hr; exact oneChanger_run hinv hn ha ts m s' (oneChanger_step hinv hn ha h hs) hr

/-- C77: one thread switches levels, the others LOG or ask. Whenever the one thread is between two calls, registry and results are what its calls give when made alone. -/
theorem C77_one_changer_partial (r0 : Registry) (hinv : RegInv r0) (hown : Own r0) (calls : Nat → List RegCall) (u : Nat) (ops : List LevelOp)
    (hu : calls u = ops.map .op) (hn : ∀ t, ∀ a ∈ calls t, ¬ reshapes (known r0) a) (ha : ∀ t, t ≠ u → ∀ a ∈ calls t, onlyAsks r0 a)
    (ts : List Nat) (s : LtState) (hr : ltRun (LtState.start r0 calls) ts = some s) (hd : s.code u = none) :
    ∃ pre rest, ops = pre ++ rest ∧ s.todo u = rest.map .op ∧ s.reg = (levelRun r0 pre).2 ∧ s.outs u = (levelRun r0 pre).1.map .out :=
  (oneChanger_run hinv hn ha ts _ s ⟨rGood_start hown calls, fun t _ c h => (by cases h),
    fun _ => ⟨[], ops, rfl, hu, rfl, rfl⟩, fun c h => (by cases h)⟩ hr).idle hd

theorem regInv_own_default : RegInv defaultLevels ∧ Own defaultLevels := ⟨regInv_default, own_default⟩

/-- Hypotheses met: thread 0 turns levels off and on while threads 1 and 2 LOG. -/
def C77_calls : Nat → List RegCall
  | 0 => [LevelOp.setHighest WARNING, LevelOp.enable INFO].map .op
  | 1 => [.op (.logLevel INFO), .op (.logLevel FATAL)]
  | 2 => [.op (.logLevel DEBUG)]
  | _ => []

example : (∀ a ∈ C77_calls 0, ¬ reshapes (known defaultLevels) a) ∧
    (∀ t, t ≠ 0 → ∀ a ∈ C77_calls t, ∃ l, a = .op (.logLevel l) ∧ known defaultLevels l.value) := by
  refine ⟨?_, ?_⟩
  · intro a ha
    simp only [C77_calls, List.map_cons, List.map_nil, List.mem_cons, List.not_mem_nil, or_false] at ha
    rcases ha with rfl | rfl <;> exact id
  · intro t ht a ha
    match t with
    | 0 => exact absurd rfl ht
    | 1 =>
      simp only [C77_calls, List.mem_cons, List.not_mem_nil, or_false] at ha
      rcases ha with rfl | rfl
      · exact ⟨INFO, rfl, by unfold known; decide⟩
      · exact ⟨FATAL, rfl, by unfold known; decide⟩
    | 2 =>
      simp only [C77_calls, List.mem_cons, List.not_mem_nil, or_false] at ha
      subst ha
      exact ⟨DEBUG, rfl, by unfold known; decide⟩
    | _ + 3 => cases ha

/-- LOG at INFO is undisturbed by two threads that switch WARNING. -/
example : ∀ a ∈ [RegCall.op (.set WARNING false), .op (.enable WARNING)], ¬ switches (known defaultLevels) INFO.value a ∧
    ¬ reshapes (known defaultLevels) a := by
  intro a ha
  simp only [List.mem_cons, List.not_mem_nil, or_false] at ha
  rcases ha with rfl | rfl <;> exact ⟨by unfold switches; decide, id⟩

example : ¬ known defaultLevels 301 := by unfold known; decide

end G3.Props
