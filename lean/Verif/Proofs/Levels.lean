import Verif.Spec.Levels
import Verif.Proofs.Str
/- Helper lemmas for the level registry. -/
namespace G3
open Spec

namespace Registry

theorem find?_insert (k j : Int) (v : LoggingLevel) (r : Registry) :
    (r.insert k v).find? j = if j = k then some v else r.find? j := by
  induction r with
  | nil => simp [insert, find?]
  | cons p r ih =>
    obtain ⟨k', v'⟩ := p
    simp only [insert]
    split
    · simp only [find?]
    · split
      · rename_i h1 h2; subst h2
        simp only [find?]
        split <;> rfl
      · rename_i h1 h2
        simp only [find?, ih]
        by_cases hj : j = k'
        · subst hj
          have : j ≠ k := fun e => h2 e.symm
          simp [this]
        · simp [hj]

/-- The keys of a registry. -/
def keys (r : Registry) : List Int := r.map Prod.fst

theorem mem_keys (r : Registry) (k : Int) : k ∈ r.keys ↔ r.find? k ≠ none := by
  induction r with
  | nil => simp [keys, find?]
  | cons p r ih =>
    obtain ⟨k', v'⟩ := p
    simp only [keys, List.map_cons, List.mem_cons, find?] at *
    by_cases h : k = k'
    · simp [h]
    · simp [h, ih]

theorem mem_keys_insert (k j : Int) (v : LoggingLevel) (r : Registry) :
    j ∈ (r.insert k v).keys ↔ j = k ∨ j ∈ r.keys := by
  rw [mem_keys, find?_insert, mem_keys]
  by_cases h : j = k <;> simp [h]

/-- Keys ascending. -/
def Sorted (r : Registry) : Prop := r.keys.Pairwise (· < ·)

theorem sorted_insert (k : Int) (v : LoggingLevel) (r : Registry) (h : r.Sorted) :
    (r.insert k v).Sorted := by
  induction r with
  | nil => simp [Sorted, keys, insert]
  | cons p r ih =>
    obtain ⟨k', v'⟩ := p
    have hs : (∀ j ∈ keys r, k' < j) ∧ Sorted r := by
      simpa [Sorted, keys, List.pairwise_cons] using h
    simp only [insert]
    split
    · rename_i hlt
      show List.Pairwise _ (k :: k' :: keys r)
      rw [List.pairwise_cons]
      refine ⟨?_, h⟩
      intro j hj
      rcases List.mem_cons.mp hj with rfl | hj
      · exact hlt
      · have := hs.1 j hj; omega
    · split
      · rename_i h1 h2; subst h2
        exact h
      · rename_i h1 h2
        show List.Pairwise _ (k' :: keys (Registry.insert k v r))
        rw [List.pairwise_cons]
        refine ⟨?_, ih hs.2⟩
        intro j hj
        rw [mem_keys_insert] at hj
        rcases hj with rfl | hj
        · omega
        · exact hs.1 j hj

theorem find?_map (f : LoggingLevel → LoggingLevel) (r : Registry) (k : Int) :
    Registry.find? k (r.map fun p => (p.1, f p.2)) = (r.find? k).map f := by
  induction r with
  | nil => simp [find?]
  | cons p r ih =>
    obtain ⟨k', v'⟩ := p
    simp only [List.map_cons, find?]
    split
    · rfl
    · exact ih

theorem keys_map (f : LoggingLevel → LoggingLevel) (r : Registry) :
    keys (r.map fun p => (p.1, f p.2)) = keys r := by
  simp [keys, List.map_map, Function.comp_def]

end Registry

open Registry

/-- Registry invariant: keys ascending; every entry is filed under its own value or is the default
`INFO` entry created by a query; names carry no NUL; INFO's key is present. -/
structure RegInv (r : Registry) : Prop where
  sorted : r.Sorted
  entry : ∀ k v, r.find? k = some v → (v.level.value = k ∨ v.level = INFO) ∧ cstr v.level.text = v.level.text
  info : r.find? 300 ≠ none

theorem INFO_text : cstr INFO.text = INFO.text := by decide
theorem INFO_copy : INFO.copy = INFO := by decide

theorem regInv_default : RegInv defaultLevels := by
  refine ⟨?_, ?_, by decide⟩
  · simp [Sorted, keys, defaultLevels, DEBUG, INFO, WARNING, FATAL]
  · intro k v h
    simp only [defaultLevels, find?] at h
    split at h
    · cases h; rename_i e; subst e; exact ⟨Or.inl rfl, by decide⟩
    split at h
    · cases h; rename_i e; subst e; exact ⟨Or.inl rfl, by decide⟩
    split at h
    · cases h; rename_i e; subst e; exact ⟨Or.inl rfl, by decide⟩
    split at h
    · cases h; rename_i e; subst e; exact ⟨Or.inl rfl, by decide⟩
    · cases h

theorem regInv_insert_own (r : Registry) (h : RegInv r) (l : Level) (b : Bool) :
    RegInv (r.insert l.value (LoggingLevel.mk' l b)) := by
  refine ⟨sorted_insert _ _ _ h.sorted, ?_, ?_⟩
  · intro k v hk
    rw [find?_insert] at hk
    split at hk
    · rename_i e; cases hk
      exact ⟨Or.inl e.symm, cstr_idem _⟩
    · exact h.entry k v hk
  · rw [find?_insert]; split
    · simp
    · exact h.info

theorem regInv_set (r : Registry) (h : RegInv r) (l : Level) (b : Bool) : RegInv (setLevel l b r) := by
  unfold setLevel
  split
  · exact regInv_insert_own r h l b
  · exact h

theorem regInv_map (r : Registry) (h : RegInv r) (b : Bool) :
    RegInv (r.map fun p => (p.1, { p.2 with status := b })) := by
  have e := find?_map (fun v => { v with status := b }) r
  refine ⟨?_, ?_, ?_⟩
  · unfold Sorted; rw [keys_map (fun v => { v with status := b })]; exact h.sorted
  · intro k v hk
    rw [e] at hk
    cases hf : r.find? k with
    | none => rw [hf] at hk; cases hk
    | some w => rw [hf] at hk; cases hk; exact h.entry k w hf
  · rw [e]; simpa using h.info

theorem regInv_logLevel (r : Registry) (h : RegInv r) (l : Level) : RegInv (logLevel l r).2 := by
  unfold logLevel
  split
  · exact h
  · refine ⟨sorted_insert _ _ _ h.sorted, ?_, ?_⟩
    · intro k v hk
      rw [find?_insert] at hk
      split at hk
      · cases hk; exact ⟨Or.inr INFO_copy, by decide⟩
      · exact h.entry k v hk
    · rw [find?_insert]; split
      · simp
      · exact h.info

theorem regInv_loop (t : Int) (ks : List Int) : ∀ r, RegInv r → RegInv (setHighestLoop t ks r) := by
  induction ks with
  | nil => intro r h; exact h
  | cons k ks ih =>
    intro r h
    unfold setHighestLoop
    split
    · exact ih r h
    · apply ih
      split
      · exact regInv_set r h _ _
      · exact regInv_set r h _ _

theorem regInv_step (r : Registry) (h : RegInv r) (o : LevelOp) : RegInv (levelStep r o).2 := by
  cases o with
  | add l b => exact regInv_insert_own r h l b
  | add1 l => exact regInv_insert_own r h l true
  | reset => exact regInv_default
  | setHighest l =>
    show RegInv (setHighest l r)
    unfold setHighest; split
    · exact regInv_loop _ _ r h
    · exact h
  | set l b => exact regInv_set r h l b
  | disable l => exact regInv_set r h l false
  | enable l => exact regInv_set r h l true
  | disableAll => exact regInv_map r h false
  | enableAll => exact regInv_map r h true
  | getStatus l => exact h
  | logLevel l => exact regInv_logLevel r h l

/-- Abstraction to the exact specification state. -/
def absE (r : Registry) : EState := fun k =>
  (r.find? k).map fun v => ⟨v.status, v.level.text, decide (v.level.value ≠ k)⟩

theorem find?_set (r : Registry) (l : Level) (b : Bool) (k : Int) :
    (setLevel l b r).find? k =
      if k = l.value then (r.find? k).map (fun _ => LoggingLevel.mk' l b) else r.find? k := by
  unfold setLevel
  split
  · rename_i w hw
    rw [find?_insert]
    split
    · rename_i e; subst e; rw [hw]; rfl
    · rfl
  · rename_i hw
    split
    · rename_i e; subst e; rw [hw]; rfl
    · rfl

theorem absE_init : absE defaultLevels = eInit := by
  funext k
  unfold absE eInit
  simp only [defaultLevels, find?]
  by_cases h1 : k = 100
  · subst h1; decide
  by_cases h2 : k = 300
  · subst h2; decide
  by_cases h3 : k = 500
  · subst h3; decide
  by_cases h4 : k = 1000
  · subst h4; decide
  simp [DEBUG, INFO, WARNING, FATAL, h1, h2, h3, h4]

theorem copy_of_inv {v : LoggingLevel} (h : cstr v.level.text = v.level.text) : v.level.copy = v.level := by
  unfold Level.copy; rw [h]

/-- Effect of the `setHighest` loop on a key other than INFO's. -/
theorem loop_other (t : Int) (ks : List Int) (k : Int) (hk : k ≠ 300) :
    ∀ r, RegInv r → (setHighestLoop t ks r).find? k =
      (r.find? k).map fun v => if k ∈ ks ∧ v.level.value = k then ⟨decide (t ≤ k), v.level⟩ else v := by
  induction ks with
  | nil => intro r _; simp [setHighestLoop]
  | cons a ks ih =>
    intro r hr
    unfold setHighestLoop
    cases ha : r.find? a with
    | none =>
      simp only
      rw [ih r hr]
      cases hf : r.find? k with
      | none => rfl
      | some v =>
        have : k ≠ a := by rintro rfl; rw [ha] at hf; cases hf
        simp [this]
    | some w =>
      have hw := hr.entry a w ha
      have hset : ∀ b, ((setLevel w.level b r).find? k) =
          (r.find? k).map fun v => if k = a ∧ v.level.value = k then ⟨b, v.level⟩ else v := by
        intro b
        rw [find?_set]
        cases hf : r.find? k with
        | none => simp
        | some v =>
          by_cases e : k = a
          · subst e
            rw [ha] at hf; cases hf
            by_cases hv : w.level.value = k
            · simp [hv, LoggingLevel.mk', copy_of_inv hw.2]
            · have : k ≠ w.level.value := fun e => hv e.symm
              simp [hv, this]
          · by_cases hv : k = w.level.value
            · exfalso
              rcases hw.1 with h1 | h1
              · exact e (hv.trans h1)
              · rw [h1] at hv; exact hk hv
            · simp [hv, e]
      have hinv : ∀ b, RegInv (setLevel w.level b r) := fun b => regInv_set r hr _ b
      have hgen : (if a < t then disable w.level r else enable w.level r) = setLevel w.level (decide (t ≤ a)) r := by
        by_cases h : a < t
        · have : ¬ t ≤ a := by omega
          simp [h, this, disable]
        · have : t ≤ a := by omega
          simp [h, this, enable]
      simp only
      rw [hgen, ih _ (hinv _), hset]
      cases hf : r.find? k with
      | none => rfl
      | some v =>
        simp only [Option.map_some, Option.some.injEq]
        by_cases e : k = a
        · subst e
          by_cases hv : v.level.value = k
          · simp [hv]
          · simp [hv]
        · simp [e]

/-- A key whose processing writes INFO's entry. -/
def touchesInfo (r : Registry) (k : Int) : Prop := ∃ v, r.find? k = some v ∧ v.level.value = 300

theorem touches_of_set (r : Registry) (w : Level) (b : Bool) (k : Int)
    (hr : RegInv r) (hw : ∃ a u, r.find? a = some u ∧ u.level = w) :
    touchesInfo (setLevel w b r) k ↔ touchesInfo r k := by
  obtain ⟨a, u, hu, rfl⟩ := hw
  have hu' := hr.entry a u hu
  unfold touchesInfo
  rw [find?_set]
  by_cases e : k = u.level.value
  · simp only [if_pos e]
    cases hf : r.find? k with
    | none => simp
    | some v =>
      have hv := hr.entry k v hf
      simp only [Option.map_some, Option.some.injEq, exists_eq_left', LoggingLevel.mk', Level.copy]
      rw [← e]
      rcases hv.1 with h | h
      · rw [h]
      · -- `v` is a default entry filed under `k`; `u` has value `k` too
        constructor
        · intro hk; rw [h]; rfl
        · intro _
          rcases hu'.1 with h1 | h1
          · have hak : a = k := by rw [← h1]; exact e.symm
            subst hak; rw [hf] at hu; cases hu
            rw [h] at e; exact e
          · rw [h1] at e; exact e
  · simp only [if_neg e]

open Classical in
/-- Effect of the `setHighest` loop on INFO's key, for ascending keys. -/
theorem loop_info (t : Int) (ks : List Int) (hs : ks.Pairwise (· < ·)) :
    ∀ r, RegInv r → ((setHighestLoop t ks r).find? 300).map LoggingLevel.status =
      if ∃ k ∈ ks, touchesInfo r k then some (decide (∃ k ∈ ks, touchesInfo r k ∧ t ≤ k))
      else (r.find? 300).map LoggingLevel.status := by
  induction ks with
  | nil => intro r _; simp [setHighestLoop]
  | cons a ks ih =>
    intro r hr
    rw [List.pairwise_cons] at hs
    unfold setHighestLoop
    cases ha : r.find? a with
    | none =>
      have hna : ¬ touchesInfo r a := by rintro ⟨v, hv, _⟩; rw [ha] at hv; cases hv
      simp only
      rw [ih hs.2 r hr]
      simp [hna]
    | some w =>
      have hw := hr.entry a w ha
      have hgen : (if a < t then disable w.level r else enable w.level r) = setLevel w.level (decide (t ≤ a)) r := by
        by_cases h : a < t
        · have : ¬ t ≤ a := by omega
          simp [h, this, disable]
        · have : t ≤ a := by omega
          simp [h, this, enable]
      simp only
      rw [hgen, ih hs.2 _ (regInv_set r hr _ _)]
      have htouch := fun k => touches_of_set r w.level (decide (t ≤ a)) k hr ⟨a, w, ha, rfl⟩
      simp only [htouch]
      by_cases hA : touchesInfo r a
      · have hval : w.level.value = 300 := by
          obtain ⟨v, hv, hv'⟩ := hA; rw [ha] at hv; cases hv; exact hv'
        rw [find?_set, hval]
        simp only [if_true]
        cases h300 : r.find? 300 with
        | none => exact absurd h300 hr.info
        | some z =>
          by_cases hex : ∃ k ∈ ks, touchesInfo r k
          · have hex' : ∃ k ∈ a :: ks, touchesInfo r k := ⟨a, by simp, hA⟩
            rw [if_pos hex, if_pos hex']
            simp only [Option.some.injEq, decide_eq_decide]
            constructor
            · rintro ⟨k, hk, h⟩; exact ⟨k, by simp [hk], h⟩
            · rintro ⟨k, hk, h1, h2⟩
              rcases List.mem_cons.mp hk with rfl | hk
              · obtain ⟨k', hk', ht'⟩ := hex
                exact ⟨k', hk', ht', by have := hs.1 k' hk'; omega⟩
              · exact ⟨k, hk, h1, h2⟩
          · have hex' : ∃ k ∈ a :: ks, touchesInfo r k := ⟨a, by simp, hA⟩
            rw [if_neg hex, if_pos hex']
            simp only [Option.map_some, LoggingLevel.mk', Option.some.injEq, decide_eq_decide]
            constructor
            · intro h; exact ⟨a, by simp, hA, h⟩
            · rintro ⟨k, hk, h1, h2⟩
              rcases List.mem_cons.mp hk with rfl | hk
              · exact h2
              · exact absurd ⟨k, hk, h1⟩ hex
      · have hval : w.level.value ≠ 300 := fun e => hA ⟨w, ha, e⟩
        rw [find?_set]
        have : (300 : Int) ≠ w.level.value := fun e => hval e.symm
        simp only [if_neg this]
        simp [hA]

open Classical in
/-- Name recorded for INFO's key after the loop. -/
theorem loop_info_level (t : Int) (ks : List Int) :
    ∀ r, RegInv r → ((setHighestLoop t ks r).find? 300).map LoggingLevel.level =
      if ∃ k ∈ ks, k ≠ 300 ∧ touchesInfo r k then some INFO
      else (r.find? 300).map LoggingLevel.level := by
  induction ks with
  | nil => intro r _; simp [setHighestLoop]
  | cons a ks ih =>
    intro r hr
    unfold setHighestLoop
    cases ha : r.find? a with
    | none =>
      have hna : ¬ touchesInfo r a := by rintro ⟨v, hv, _⟩; rw [ha] at hv; cases hv
      simp only
      rw [ih r hr]
      simp [hna]
    | some w =>
      have hw := hr.entry a w ha
      have hgen : ∃ b, (if a < t then disable w.level r else enable w.level r) = setLevel w.level b r := by
        by_cases h : a < t
        · exact ⟨false, by simp [h, disable]⟩
        · exact ⟨true, by simp [h, enable]⟩
      obtain ⟨b, hb⟩ := hgen
      simp only
      rw [hb, ih _ (regInv_set r hr _ _)]
      have htouch := fun k => touches_of_set r w.level b k hr ⟨a, w, ha, rfl⟩
      simp only [htouch]
      by_cases hA : touchesInfo r a
      · have hval : w.level.value = 300 := by
          obtain ⟨v, hv, hv'⟩ := hA; rw [ha] at hv; cases hv; exact hv'
        by_cases hex : ∃ k ∈ ks, k ≠ 300 ∧ touchesInfo r k
        · have hex' : ∃ k ∈ a :: ks, k ≠ 300 ∧ touchesInfo r k := by
            obtain ⟨k, h1, h2⟩ := hex; exact ⟨k, by simp [h1], h2⟩
          rw [if_pos hex, if_pos hex']
        · rw [if_neg hex, find?_set, hval]
          simp only [if_true]
          cases h300 : r.find? 300 with
          | none => exact absurd h300 hr.info
          | some z =>
            simp only [Option.map_some, LoggingLevel.mk', copy_of_inv hw.2]
            by_cases ea : a = 300
            · subst ea
              rw [ha] at h300; cases h300
              have : ¬ ∃ k ∈ (300 : Int) :: ks, k ≠ 300 ∧ touchesInfo r k := by
                rintro ⟨k, hk, h1, h2⟩
                rcases List.mem_cons.mp hk with rfl | hk
                · exact h1 rfl
                · exact hex ⟨k, hk, h1, h2⟩
              rw [if_neg this]
            · have : ∃ k ∈ a :: ks, k ≠ 300 ∧ touchesInfo r k := ⟨a, by simp, ea, hA⟩
              rw [if_pos this]
              rcases hw.1 with h | h
              · exact absurd (h.symm.trans hval) ea
              · rw [h]
      · have hval : w.level.value ≠ 300 := fun e => hA ⟨w, ha, e⟩
        rw [find?_set]
        have : (300 : Int) ≠ w.level.value := fun e => hval e.symm
        simp only [if_neg this]
        simp [hA]

open Classical in
/-- One call: model and exact specification agree on the new state. -/
theorem absE_step (r : Registry) (h : RegInv r) (o : LevelOp) :
    absE (levelStep r o).2 = eStep (absE r) o := by
  have hset : ∀ l b, absE (setLevel l b r) = eSet (absE r) l b := by
    intro l b
    funext k
    unfold absE eSet
    rw [find?_set]
    split
    · rename_i e; subst e
      cases hf : r.find? l.value <;> simp [hf, LoggingLevel.mk', Level.copy, visible, cstr]
    · rfl
  have hmap : ∀ b, absE (r.map fun p => (p.1, { p.2 with status := b })) =
      fun k => (absE r k).map fun e => { e with on := b } := by
    intro b
    funext k
    unfold absE
    rw [find?_map (fun v => { v with status := b })]
    cases r.find? k <;> simp
  cases o with
  | add l b =>
    funext k
    simp only [levelStep, eStep, addLogLevel, absE, find?_insert]
    split
    · rename_i e; subst e; simp [LoggingLevel.mk', Level.copy, visible, cstr]
    · rfl
  | add1 l =>
    funext k
    simp only [levelStep, eStep, addLogLevel1, addLogLevel, absE, find?_insert]
    split
    · rename_i e; subst e; simp [LoggingLevel.mk', Level.copy, visible, cstr]
    · rfl
  | reset => exact absE_init
  | set l b => exact hset l b
  | disable l => exact hset l false
  | enable l => exact hset l true
  | disableAll => exact hmap false
  | enableAll => exact hmap true
  | getStatus l => rfl
  | logLevel l =>
    funext k
    simp only [levelStep, eStep, logLevel]
    cases hf : r.find? l.value with
    | some v =>
      simp only
      split
      · rename_i hc; obtain ⟨rfl, h2⟩ := hc
        simp [absE, hf] at h2
      · rfl
    | none =>
      by_cases e : k = l.value
      · subst e
        have hn : absE r l.value = none := by simp [absE, hf]
        have : (300 : Int) ≠ l.value := by
          intro e; apply h.info; rw [e]; exact hf
        rw [if_pos ⟨rfl, hn⟩]
        have hv : INFO.value = 300 := rfl
        simp [absE, find?_insert, LoggingLevel.default, INFO_copy, hv, this, show INFO.text = ['I', 'N', 'F', 'O'] from rfl]
      · simp [absE, find?_insert, e]
  | setHighest l =>
    simp only [levelStep, eStep, setHighest]
    cases hf : r.find? l.value with
    | none => simp [absE, hf]
    | some v0 =>
      have hne : absE r l.value ≠ none := by simp [absE, hf]
      rw [if_neg hne]
      simp only
      funext k
      have hkeys : ∀ j, j ∈ r.map Prod.fst ↔ r.find? j ≠ none := fun j => mem_keys r j
      have hghost : ∀ j, (j ≠ 300 ∧ touchesInfo r j) ↔ ∃ e, absE r j = some e ∧ e.ghost = true := by
        intro j
        unfold touchesInfo absE
        cases hj : r.find? j with
        | none => simp
        | some v =>
          have hv := h.entry j v hj
          simp only [Option.some.injEq, exists_eq_left', Option.map_some, ne_eq, decide_not,
            Bool.not_eq_eq_eq_not, Bool.not_true, decide_eq_false_iff_not]
          rcases hv.1 with h1 | h1
          · rw [h1]; simp
          · rw [h1]
            have : INFO.value = 300 := rfl
            rw [this]
            constructor
            · rintro ⟨a, _⟩ e; exact a e.symm
            · intro a; exact ⟨fun e => a e.symm, rfl⟩
      by_cases hk : k = 300
      · subst hk
        have h1 := loop_info l.value (r.map Prod.fst) h.sorted r h
        have h2 := loop_info_level l.value (r.map Prod.fst) r h
        have ht300 : touchesInfo r 300 := by
          cases h300 : r.find? 300 with
          | none => exact absurd h300 h.info
          | some z =>
            refine ⟨z, h300, ?_⟩
            rcases (h.entry 300 z h300).1 with e | e
            · exact e
            · rw [e]; rfl
        have hex : ∃ k ∈ r.map Prod.fst, touchesInfo r k := ⟨300, (hkeys 300).mpr h.info, ht300⟩
        rw [if_pos hex] at h1
        have e1 : (∃ k ∈ r.map Prod.fst, touchesInfo r k ∧ l.value ≤ k) ↔
            (l.value ≤ 300 ∨ ghostFrom (absE r) l.value) := by
          constructor
          · rintro ⟨k, hk, ht, hle⟩
            by_cases e : k = 300
            · subst e; exact Or.inl hle
            · obtain ⟨en, g1, g2⟩ := (hghost k).mp ⟨e, ht⟩
              exact Or.inr ⟨k, en, g1, g2, hle⟩
          · rintro (hle | ⟨j, en, g1, g2, hle⟩)
            · exact ⟨300, (hkeys 300).mpr h.info, ht300, hle⟩
            · have := (hghost j).mpr ⟨en, g1, g2⟩
              refine ⟨j, (hkeys j).mpr ?_, this.2, hle⟩
              intro hn; simp [absE, hn] at g1
        have e2 : (∃ k ∈ r.map Prod.fst, k ≠ 300 ∧ touchesInfo r k) ↔ hasGhost (absE r) := by
          constructor
          · rintro ⟨k, _, ht⟩
            obtain ⟨en, g1, g2⟩ := (hghost k).mp ht
            exact ⟨k, en, g1, g2⟩
          · rintro ⟨j, en, g1, g2⟩
            have := (hghost j).mpr ⟨en, g1, g2⟩
            refine ⟨j, (hkeys j).mpr ?_, this⟩
            intro hn; simp [absE, hn] at g1
        simp only [e2] at h2
        have e1' : decide (∃ k ∈ r.map Prod.fst, touchesInfo r k ∧ l.value ≤ k) =
            decide (l.value ≤ 300 ∨ ghostFrom (absE r) l.value) := by
          rw [decide_eq_decide]; exact e1
        rw [e1'] at h1
        have hL : RegInv (setHighestLoop l.value (r.map Prod.fst) r) := regInv_loop _ _ r h
        simp only [eHighest, absE]
        cases hr3 : (setHighestLoop l.value (r.map Prod.fst) r).find? 300 with
        | none => exact absurd hr3 hL.info
        | some z =>
          cases h300 : r.find? 300 with
          | none => exact absurd h300 h.info
          | some y =>
            rw [hr3] at h1 h2
            rw [h300] at h2
            simp only [Option.map_some, Option.some.injEq] at h1 h2
            have hz : z.level.value = 300 := by
              rcases (hL.entry 300 z hr3).1 with e | e
              · exact e
              · rw [e]; rfl
            simp only [Option.map_some, Option.some.injEq, if_true, Entry.mk.injEq]
            refine ⟨h1, ?_, by simp [hz]⟩
            by_cases hg : hasGhost (absE r)
            · rw [if_pos hg] at h2 ⊢
              simp only [Option.some.injEq] at h2
              rw [h2]; rfl
            · rw [if_neg hg] at h2 ⊢
              simp only [Option.some.injEq] at h2
              rw [h2]
      · have h1 := loop_other l.value (r.map Prod.fst) k hk r h
        simp only [eHighest, absE]
        rw [h1]
        cases hkf : r.find? k with
        | none => rfl
        | some v =>
          have hmem : k ∈ r.map Prod.fst := (hkeys k).mpr (by rw [hkf]; simp)
          simp only [Option.map_some, Option.some.injEq, hmem, true_and, if_neg hk]
          by_cases hv : v.level.value = k
          · simp [hv]
          · simp [hv]

/-- One call: model and exact specification agree on the result. -/
theorem out_step (r : Registry) (o : LevelOp) : (levelStep r o).1 = eOut (absE r) o := by
  cases o with
  | getStatus l =>
    simp only [levelStep, eOut, getStatus, absE]
    cases r.find? l.value with
    | none => rfl
    | some v => cases hs : v.status <;> simp [sStatus, hs]
  | logLevel l =>
    have e : (absE r l.value).map Entry.on = (r.find? l.value).map LoggingLevel.status := by
      unfold absE; cases r.find? l.value <;> rfl
    simp only [levelStep, eOut, logLevel]
    rw [LevelOut.bool.injEq]
    cases hf : r.find? l.value with
    | none => rw [hf] at e; simp [LoggingLevel.default, e]
    | some v => rw [hf] at e; simp [e]
  | _ => rfl

theorem run_exact (os : List LevelOp) : ∀ r, RegInv r →
    (levelRun r os).1 = (eRun (absE r) os).1 ∧ absE (levelRun r os).2 = (eRun (absE r) os).2
      ∧ RegInv (levelRun r os).2 := by
  induction os with
  | nil => intro r h; exact ⟨rfl, rfl, h⟩
  | cons o os ih =>
    intro r h
    have h2 := ih _ (regInv_step r h o)
    rw [absE_step r h o] at h2
    simp only [levelRun, eRun]
    exact ⟨by rw [out_step r o, h2.1], h2.2.1, h2.2.2⟩

/-! ### From the exact to the documented specification -/

/-- No ghosts. -/
def noGhost (σ : EState) : Prop := ∀ k e, σ k = some e → e.ghost = false

/-- Forget names and ghosts. -/
def forget (σ : EState) : SState := fun k => (σ k).map Entry.on

theorem forget_init : forget eInit = sInit := by
  funext k
  unfold forget eInit sInit
  by_cases h1 : k = 100
  · simp [h1]
  by_cases h2 : k = 300
  · simp [h2]
  by_cases h3 : k = 500
  · simp [h3]
  by_cases h4 : k = 1000
  · simp [h4]
  simp [h1, h2, h3, h4]

theorem noGhost_init : noGhost eInit := by
  intro k e h
  unfold eInit at h
  split at h
  · cases h; rfl
  split at h
  · cases h; rfl
  split at h
  · cases h; rfl
  split at h
  · cases h; rfl
  · cases h

open Classical in
theorem noGhost_step (σ : EState) (h : noGhost σ) (o : LevelOp)
    (hd : ∀ l, o = .logLevel l → forget σ l.value ≠ none) : noGhost (eStep σ o) := by
  have hset : ∀ l b, noGhost (eSet σ l b) := by
    intro l b k e he
    unfold eSet at he
    split at he
    · cases hk : σ k with
      | none => rw [hk] at he; cases he
      | some x => rw [hk] at he; cases he; rfl
    · exact h k e he
  have hmap : ∀ b, noGhost (fun k => (σ k).map fun e => { e with on := b }) := by
    intro b k e he
    cases hk : σ k with
    | none => simp [hk] at he
    | some x => simp only [hk, Option.map_some, Option.some.injEq] at he; subst he; exact h k x hk
  cases o with
  | add l b =>
    intro k e he
    simp only [eStep] at he
    split at he
    · cases he; rfl
    · exact h k e he
  | add1 l =>
    intro k e he
    simp only [eStep] at he
    split at he
    · cases he; rfl
    · exact h k e he
  | reset => exact noGhost_init
  | setHighest l =>
    intro k e he
    simp only [eStep] at he
    split at he
    · exact h k e he
    · simp only [eHighest] at he
      cases hk : σ k with
      | none => rw [hk] at he; cases he
      | some x =>
        rw [hk] at he
        simp only [Option.map_some, Option.some.injEq] at he
        have hx := h k x hk
        split at he
        · subst he; rfl
        · simp only [hx, Bool.false_eq_true, if_false] at he
          subst he; rfl
  | set l b => exact hset l b
  | disable l => exact hset l false
  | enable l => exact hset l true
  | disableAll => exact hmap false
  | enableAll => exact hmap true
  | getStatus l => exact h
  | logLevel l =>
    intro k e he
    simp only [eStep] at he
    split at he
    · rename_i hc
      exfalso
      apply hd l rfl
      obtain ⟨rfl, h2⟩ := hc
      simp [forget, h2]
    · exact h k e he

open Classical in
theorem forget_step (σ : EState) (h : noGhost σ) (o : LevelOp)
    (hd : ∀ l, o = .logLevel l → forget σ l.value ≠ none) : forget (eStep σ o) = sStep (forget σ) o := by
  have hset : ∀ l b, forget (eSet σ l b) = fun k => if k = l.value then (forget σ k).map fun _ => b else forget σ k := by
    intro l b
    funext k
    unfold forget eSet
    split
    · cases σ k <;> simp
    · rfl
  have hmap : ∀ b, forget (fun k => (σ k).map fun e => { e with on := b }) = fun k => (forget σ k).map fun _ => b := by
    intro b
    funext k
    unfold forget
    cases hk : σ k <;> simp [hk]
  cases o with
  | add l b => funext k; simp only [eStep, sStep, forget]; split <;> rfl
  | add1 l => funext k; simp only [eStep, sStep, forget]; split <;> rfl
  | reset => exact forget_init
  | setHighest l =>
    funext k
    simp only [eStep, sStep]
    have hng : ¬ ghostFrom σ l.value := by
      rintro ⟨j, e, h1, h2, _⟩
      rw [h j e h1] at h2; cases h2
    by_cases hn : σ l.value = none
    · have : forget σ l.value = none := by simp [forget, hn]
      rw [if_pos hn, if_pos this]
    · have : forget σ l.value ≠ none := by simpa [forget] using hn
      rw [if_neg hn, if_neg this]
      unfold forget eHighest
      cases hk : σ k with
      | none => rfl
      | some x =>
        have hx := h k x hk
        simp only [Option.map_some, Option.some.injEq]
        split
        · rename_i e; subst e; simp [hng]
        · simp [hx]
  | set l b => exact hset l b
  | disable l => exact hset l false
  | enable l => exact hset l true
  | disableAll => exact hmap false
  | enableAll => exact hmap true
  | getStatus l => rfl
  | logLevel l =>
    funext k
    simp only [eStep, sStep, forget]
    split
    · rename_i hc
      exfalso
      apply hd l rfl
      obtain ⟨rfl, h2⟩ := hc
      simp [forget, h2]
    · rfl

theorem forget_out (σ : EState) (o : LevelOp) : eOut σ o = sOut (forget σ) o := by
  cases o <;> rfl

theorem forget_run (os : List LevelOp) : ∀ σ, noGhost σ → Documented (forget σ) os →
    (eRun σ os).1 = (sRun (forget σ) os).1 ∧ forget (eRun σ os).2 = (sRun (forget σ) os).2
      ∧ noGhost (eRun σ os).2 := by
  induction os with
  | nil => intro σ h _; exact ⟨rfl, rfl, h⟩
  | cons o os ih =>
    intro σ h hd
    have hstep := forget_step σ h o hd.1
    have hd2 : Documented (forget (eStep σ o)) os := by rw [hstep]; exact hd.2
    have := ih _ (noGhost_step σ h o hd.1) hd2
    rw [hstep] at this
    simp only [eRun, sRun]
    exact ⟨by rw [forget_out, this.1], this.2.1, this.2.2⟩

end G3
