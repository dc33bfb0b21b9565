import Verif.Spec.Visibility
import Mathlib.Data.List.Induction
/- C88, C89: what is visible to whom, and the absence of data races, in the queues between loggers, worker and sinks. -/
namespace G3.Props
open G3 G3.Spec

abbrev VTr := List (Nat × MemEv)

theorem swp_self (k : Nat) : swp k k = 0 := by simp [swp]
theorem swp_zero (k : Nat) : swp k 0 = k := by unfold swp; split <;> simp_all
theorem swp_swp (k t : Nat) : swp k (swp k t) = t := by unfold swp; grind

theorem get_ext {tr : VTr} {i : Nat} {x : Nat × MemEv} (ext : VTr) (h : tr[i]? = some x) : (tr ++ ext)[i]? = some x := by
  rw [List.getElem?_append_left (List.getElem?_eq_some_iff.mp h).1]; exact h

theorem get_app {tr ext : VTr} {i : Nat} {x : Nat × MemEv} (h : (tr ++ ext)[i]? = some x) :
    tr[i]? = some x ∨ (tr.length ≤ i ∧ ext[i - tr.length]? = some x) := by
  by_cases hi : i < tr.length
  · rw [List.getElem?_append_left hi] at h; exact .inl h
  · rw [List.getElem?_append_right (by omega)] at h; exact .inr ⟨by omega, h⟩

theorem get_app1 {tr : VTr} {i : Nat} {x y : Nat × MemEv} (h : (tr ++ [y])[i]? = some x) : tr[i]? = some x ∨ (i = tr.length ∧ x = y) := by
  rcases get_app h with h | ⟨h1, h2⟩
  · exact .inl h
  · have := (List.getElem?_eq_some_iff.mp h2).1
    simp at this
    have e : i - tr.length = 0 := by omega
    rw [e] at h2
    exact .inr ⟨by omega, by simpa using h2.symm⟩

theorem Edge_ext {tr : VTr} {i j : Nat} (e : VTr) (h : Edge tr i j) : Edge (tr ++ e) i j := by
  cases h with
  | po h1 h2 h3 => exact .po h1 (get_ext e h2) (get_ext e h3)
  | mutex h1 h2 h3 => exact .mutex h1 (get_ext e h2) (get_ext e h3)
  | thread h1 h2 h3 => exact .thread h1 (get_ext e h2) (get_ext e h3)
  | future h1 h2 h3 => exact .future h1 (get_ext e h2) (get_ext e h3)

theorem HB_ext {tr : VTr} {i j : Nat} (e : VTr) (h : HB tr i j) : HB (tr ++ e) i j := by
  induction h with
  | edge h => exact .edge (Edge_ext e h)
  | trans _ _ h1 h2 => exact .trans h1 h2

theorem HB_lt {tr : VTr} {i j : Nat} (h : HB tr i j) : i < j := by
  induction h with
  | edge h => cases h <;> assumption
  | trans _ _ h1 h2 => omega

/-- Whatever thread `g` does next happens after event `a`. -/
def Knows (tr : VTr) (g a : Nat) : Prop := ∃ c e, tr[c]? = some (g, e) ∧ (a = c ∨ HB tr a c)

/-- Whatever follows the next lock of mutex `k` happens after event `a`. -/
def MKnows (tr : VTr) (k a : Nat) : Prop := ∃ c g, tr[c]? = some (g, .unlock k) ∧ (a = c ∨ HB tr a c)

theorem Knows_ext {tr : VTr} {g a : Nat} (e : VTr) (h : Knows tr g a) : Knows (tr ++ e) g a := by
  obtain ⟨c, x, h1, h2⟩ := h
  exact ⟨c, x, get_ext e h1, h2.imp id (HB_ext e)⟩

theorem MKnows_ext {tr : VTr} {k a : Nat} (e : VTr) (h : MKnows tr k a) : MKnows (tr ++ e) k a := by
  obtain ⟨c, x, h1, h2⟩ := h
  exact ⟨c, x, get_ext e h1, h2.imp id (HB_ext e)⟩

theorem get_last (tr : VTr) (x : Nat × MemEv) : (tr ++ [x])[tr.length]? = some x := by simp

theorem Knows_next {tr : VTr} {g a : Nat} (e : MemEv) (h : Knows tr g a) : HB (tr ++ [(g, e)]) a tr.length := by
  obtain ⟨c, x, h1, h2⟩ := h
  have hc := (List.getElem?_eq_some_iff.mp h1).1
  have hp : HB (tr ++ [(g, e)]) c tr.length := .edge (.po hc (get_ext _ h1) (get_last _ _))
  rcases h2 with rfl | h2
  · exact hp
  · exact .trans (HB_ext _ h2) hp

theorem MKnows_lock {tr : VTr} {k a : Nat} (g : Nat) (h : MKnows tr k a) : HB (tr ++ [(g, .lock k)]) a tr.length := by
  obtain ⟨c, x, h1, h2⟩ := h
  have hc := (List.getElem?_eq_some_iff.mp h1).1
  have hp : HB (tr ++ [(g, .lock k)]) c tr.length := .edge (.mutex hc (get_ext _ h1) (get_last _ _))
  rcases h2 with rfl | h2
  · exact hp
  · exact .trans (HB_ext _ h2) hp

/-- Event `a` happens before whatever the next owner of the mutex of object `k` does. -/
def Guard (tr : VTr) (k : Nat) (owner : Option Nat) (a : Nat) : Prop :=
  match owner with
  | none => MKnows tr k a
  | some t => Knows tr (swp k t) a

theorem Guard_ext {tr : VTr} {k a : Nat} {o : Option Nat} (e : VTr) (h : Guard tr k o a) : Guard (tr ++ e) k o a := by
  cases o with
  | none => exact MKnows_ext e h
  | some t => exact Knows_ext e h

theorem set_get {α : Type} {l : List α} {t u : Nat} {x y z : α} (ht : l[t]? = some y) (h : (l.set t x)[u]? = some z) :
    (u = t ∧ z = x) ∨ (u ≠ t ∧ l[u]? = some z) := by
  have hl := (List.getElem?_eq_some_iff.mp ht).1
  rw [List.getElem?_set] at h
  by_cases e : t = u
  · rw [if_pos e, if_pos hl] at h
    exact .inl ⟨e.symm, by simpa using h.symm⟩
  · rw [if_neg e] at h; exact .inr ⟨fun h => e h.symm, h⟩

/-- The queue of object `k`. -/
structure QObj (tr : VTr) (k : Nat) (s : QState ATask) : Prop where
  own1 : ∀ t op, s.pcs[t]? = some (.crit op) → s.owner = some t
  own2 : ∀ t op r, s.pcs[t]? = some (.fin op r) → s.owner = some t
  items : ∀ i, .user i ∈ s.q → ∃ (a g : Nat), tr[a]? = some (g, .send k i) ∧ Guard tr k s.owner a
  acc : ∀ (a g : Nat), tr[a]? = some (g, .access k .queue) → Guard tr k s.owner a
  want : ∀ t i, s.pcs[t]? = some (.want (.push (.user i))) → ∃ a : Nat, tr[a]? = some (swp k t, .send k i)
  crit : ∀ t i, s.pcs[t]? = some (.crit (.push (.user i))) → ∃ a : Nat, tr[a]? = some (swp k t, .send k i)
  popped : ∀ t op i, s.pcs[t]? = some (.fin op (.item (.user i))) → ∃ (a g : Nat), tr[a]? = some (g, .send k i) ∧ Knows tr (swp k t) a
  ord : ∀ (a b g h : Nat), a < b → tr[a]? = some (g, .access k .queue) → tr[b]? = some (h, .access k .queue) → HB tr a b

theorem QObj_ext {tr : VTr} {k : Nat} {s : QState ATask} (e : VTr) (he : ∀ g, (g, MemEv.access k .queue) ∉ e) (h : QObj tr k s) : QObj (tr ++ e) k s := by
  have hacc : ∀ (a g : Nat), (tr ++ e)[a]? = some (g, .access k .queue) → tr[a]? = some (g, .access k .queue) := by
    intro a g ha
    rcases get_app ha with ha | ⟨-, ha⟩
    · exact ha
    · exact absurd (List.mem_of_getElem? ha) (he g)
  refine ⟨h.own1, h.own2, fun i hi => ?_, fun a g ha => Guard_ext e (h.acc a g (hacc a g ha)), fun t i ht => ?_, fun t i ht => ?_,
    fun t op i ht => ?_, fun a b g g' hab ha hb => HB_ext e (h.ord a b g g' hab (hacc _ _ ha) (hacc _ _ hb))⟩
  · obtain ⟨a, g, h1, h2⟩ := h.items i hi; exact ⟨a, g, get_ext e h1, Guard_ext e h2⟩
  · obtain ⟨a, h1⟩ := h.want t i ht; exact ⟨a, get_ext e h1⟩
  · obtain ⟨a, h1⟩ := h.crit t i ht; exact ⟨a, get_ext e h1⟩
  · obtain ⟨a, g, h1, h2⟩ := h.popped t op i ht; exact ⟨a, g, get_ext e h1, Knows_ext e h2⟩

theorem QObj_call {tr : VTr} {k t : Nat} {s s' : QState ATask} {op : QOp ATask} (x : MemEv) (h : QObj tr k s)
    (hs : qStep s (.call t op) = some s') (hx : ∀ g y, (g, MemEv.access k y) ≠ (swp k t, x))
    (hop : ∀ i, op = .push (.user i) → x = .send k i) : QObj (tr ++ [(swp k t, x)]) k s' := by
  have h' := QObj_ext [(swp k t, x)] (by intro g hg; rw [List.mem_singleton] at hg; exact hx _ _ hg) h
  unfold qStep at hs
  simp only at hs
  split at hs
  case h_2 => cases hs
  rename_i hpc
  simp only [Option.some.injEq] at hs; subst hs
  refine ⟨fun u op' hu => ?_, fun u op' r hu => ?_, h'.items, h'.acc, fun u i hu => ?_, fun u i hu => ?_, fun u op' i hu => ?_, h'.ord⟩
  · rcases set_get hpc hu with ⟨-, e⟩ | ⟨-, hu⟩
    · cases e
    · exact h'.own1 u op' hu
  · rcases set_get hpc hu with ⟨-, e⟩ | ⟨-, hu⟩
    · cases e
    · exact h'.own2 u op' r hu
  · rcases set_get hpc hu with ⟨e1, e⟩ | ⟨-, hu⟩
    · cases e; rw [e1, hop i rfl]; exact ⟨_, get_last _ _⟩
    · exact h'.want u i hu
  · rcases set_get hpc hu with ⟨-, e⟩ | ⟨-, hu⟩
    · cases e
    · exact h'.crit u i hu
  · rcases set_get hpc hu with ⟨-, e⟩ | ⟨-, hu⟩
    · cases e
    · exact h'.popped u op' i hu

theorem QObj_lock {tr : VTr} {k t : Nat} {s s' : QState ATask} (h : QObj tr k s) (hs : qStep s (.lock t) = some s') :
    QObj (tr ++ [(swp k t, .lock k)]) k s' := by
  have h' := QObj_ext [(swp k t, .lock k)] (by simp) h
  unfold qStep at hs
  simp only at hs
  split at hs
  · cases hs
  rename_i hown
  have hg : ∀ a, Guard tr k s.owner a → Guard (tr ++ [(swp k t, .lock k)]) k (some t) a := by
    intro a ha
    rw [hown] at ha
    exact ⟨tr.length, _, get_last _ _, .inr (MKnows_lock _ ha)⟩
  have hno1 : ∀ (u : Nat) op, s.pcs[u]? ≠ some (.crit op) := fun u op e => by have := h.own1 u op e; rw [hown] at this; cases this
  have hno2 : ∀ (u : Nat) op r, s.pcs[u]? ≠ some (.fin op r) := fun u op r e => by have := h.own2 u op r e; rw [hown] at this; cases this
  have hacc : ∀ (a g : Nat), (tr ++ [(swp k t, .lock k)])[a]? = some (g, .access k .queue) → tr[a]? = some (g, .access k .queue) := by
    intro a g ha
    rcases get_app1 ha with ha | ⟨-, ha⟩
    · exact ha
    · cases ha
  have key : ∀ op, s.pcs[t]? = some (.want op) ∨ (s.pcs[t]? = some .woken ∧ op = .waitPop) →
      QObj (tr ++ [(swp k t, .lock k)]) k { s with owner := some t, pcs := s.pcs.set t (.crit op) } := by
    intro op hpc
    have hpc' : ∃ y, s.pcs[t]? = some y := by rcases hpc with h | ⟨h, -⟩ <;> exact ⟨_, h⟩
    obtain ⟨y, hy⟩ := hpc'
    refine ⟨fun u op' hu => ?_, fun u op' r hu => ?_, fun i hi => ?_, fun a g ha => hg a (h.acc a g (hacc a g ha)), fun u i hu => ?_,
      fun u i hu => ?_, fun u op' i hu => ?_, h'.ord⟩
    · rcases set_get hy hu with ⟨e1, e⟩ | ⟨-, hu⟩
      · rw [e1]
      · exact absurd hu (hno1 u op')
    · rcases set_get hy hu with ⟨-, e⟩ | ⟨-, hu⟩
      · cases e
      · exact absurd hu (hno2 u op' r)
    · obtain ⟨a, g, h1, h2⟩ := h.items i hi
      exact ⟨a, g, get_ext _ h1, hg a h2⟩
    · rcases set_get hy hu with ⟨-, e⟩ | ⟨-, hu⟩
      · cases e
      · exact h'.want u i hu
    · rcases set_get hy hu with ⟨e1, e⟩ | ⟨-, hu⟩
      · cases e
        rcases hpc with hpc | ⟨-, e⟩
        · rw [e1]; exact h'.want t i hpc
        · cases e
      · exact h'.crit u i hu
    · rcases set_get hy hu with ⟨-, e⟩ | ⟨-, hu⟩
      · cases e
      · exact h'.popped u op' i hu
  split at hs
  · rename_i op hpc
    simp only [Option.some.injEq] at hs; subst hs; exact key op (.inl hpc)
  · rename_i hpc
    simp only [Option.some.injEq] at hs; subst hs; exact key .waitPop (.inr ⟨hpc, rfl⟩)
  · cases hs

/-- After an unlock by the owner, everything is known to the mutex. -/
theorem guard_unlock {tr : VTr} {k t a : Nat} (h : Knows tr (swp k t) a) : Guard (tr ++ [(swp k t, .unlock k)]) k none a :=
  ⟨tr.length, _, get_last _ _, .inr (Knows_next _ h)⟩

theorem QObj_unlock {tr : VTr} {k t : Nat} {s s' : QState ATask} (h : QObj tr k s) (hs : qStep s (.unlock t) = some s') :
    QObj (tr ++ [(swp k t, .unlock k)]) k s' := by
  have h' := QObj_ext [(swp k t, .unlock k)] (by simp) h
  have hacc : ∀ (a g : Nat), (tr ++ [(swp k t, .unlock k)])[a]? = some (g, .access k .queue) → tr[a]? = some (g, .access k .queue) := by
    intro a g ha
    rcases get_app1 ha with ha | ⟨-, ha⟩
    · exact ha
    · cases ha
  have key : ∀ op r pc tr', s.pcs[t]? = some (.fin op r) → (pc = QPc.notify ∨ pc = QPc.idle) →
      QObj (tr ++ [(swp k t, .unlock k)]) k { s with owner := none, pcs := s.pcs.set t pc, trace := tr' } := by
    intro op r pc tr' hpc hpc2
    have hown := h.own2 t op r hpc
    have huniq : ∀ u, s.owner = some u → u = t := fun u e => by rw [hown] at e; cases e; rfl
    refine ⟨fun u op' hu => ?_, fun u op' r hu => ?_, fun i hi => ?_, fun a g ha => ?_, fun u i hu => ?_, fun u i hu => ?_,
      fun u op' i hu => ?_, h'.ord⟩
    · rcases set_get hpc hu with ⟨-, e⟩ | ⟨hne, hu⟩
      · rcases hpc2 with rfl | rfl <;> cases e
      · exact absurd (huniq u (h.own1 u op' hu)) hne
    · rcases set_get hpc hu with ⟨-, e⟩ | ⟨hne, hu⟩
      · rcases hpc2 with rfl | rfl <;> cases e
      · exact absurd (huniq u (h.own2 u op' r hu)) hne
    · obtain ⟨a, g, h1, h2⟩ := h.items i hi
      rw [hown] at h2
      exact ⟨a, g, get_ext _ h1, guard_unlock h2⟩
    · have h2 := h.acc a g (hacc a g ha)
      rw [hown] at h2
      exact guard_unlock h2
    · rcases set_get hpc hu with ⟨-, e⟩ | ⟨-, hu⟩
      · rcases hpc2 with rfl | rfl <;> cases e
      · exact h'.want u i hu
    · rcases set_get hpc hu with ⟨-, e⟩ | ⟨-, hu⟩
      · rcases hpc2 with rfl | rfl <;> cases e
      · exact h'.crit u i hu
    · rcases set_get hpc hu with ⟨-, e⟩ | ⟨-, hu⟩
      · rcases hpc2 with rfl | rfl <;> cases e
      · exact h'.popped u op' i hu
  unfold qStep at hs
  simp only at hs
  split at hs
  · rename_i hpc
    simp only [Option.some.injEq] at hs; subst hs; exact key _ _ _ _ hpc (.inl rfl)
  · rename_i hpc
    simp only [Option.some.injEq] at hs; subst hs; exact key _ _ _ _ hpc (.inr rfl)
  · cases hs

/-- An access to the queue by the owner of the mutex happens after all earlier ones. -/
theorem QObj_access {tr : VTr} {k t : Nat} {s : QState ATask} (h : QObj tr k s) (ho : s.owner = some t) :
    QObj (tr ++ [(swp k t, .access k .queue)]) k s := by
  have hcase : ∀ (a g : Nat), (tr ++ [(swp k t, .access k .queue)])[a]? = some (g, .access k .queue) →
      tr[a]? = some (g, .access k .queue) ∨ a = tr.length := fun a g ha => (get_app1 ha).imp id (·.1)
  refine ⟨h.own1, h.own2, fun i hi => ?_, fun a g ha => ?_, fun t i ht => ?_, fun t i ht => ?_, fun t op i ht => ?_,
    fun a b g g' hab ha hb => ?_⟩
  · obtain ⟨a, g, h1, h2⟩ := h.items i hi; exact ⟨a, g, get_ext _ h1, Guard_ext _ h2⟩
  · rcases hcase a g ha with ha | rfl
    · exact Guard_ext _ (h.acc a g ha)
    · rw [ho]; exact ⟨tr.length, _, get_last _ _, .inl rfl⟩
  · obtain ⟨a, h1⟩ := h.want t i ht; exact ⟨a, get_ext _ h1⟩
  · obtain ⟨a, h1⟩ := h.crit t i ht; exact ⟨a, get_ext _ h1⟩
  · obtain ⟨a, g, h1, h2⟩ := h.popped t op i ht; exact ⟨a, g, get_ext _ h1, Knows_ext _ h2⟩
  · rcases hcase b g' hb with hb | rfl
    · rcases hcase a g ha with ha | rfl
      · exact HB_ext _ (h.ord a b g g' hab ha hb)
      · have := (List.getElem?_eq_some_iff.mp hb).1; omega
    · rcases hcase a g ha with ha | rfl
      · have h2 := h.acc a g ha
        rw [ho] at h2
        exact Knows_next _ h2
      · omega

theorem QObj_act {tr : VTr} {k t : Nat} {c : CState} {s' : QState ATask} (h : QObj tr k c.qs) (hs : qStep c.qs (.act t) = some s') :
    QObj (tr ++ memEvents k c (.mem (.act t))) k s' := by
  unfold qStep at hs
  simp only at hs
  split at hs
  case h_2 => cases hs
  rename_i op hpc
  have hown := h.own1 t op hpc
  have huniq : ∀ u, c.qs.owner = some u → u = t := fun u e => by rw [hown] at e; cases e; rfl
  simp only [memEvents, hpc]
  cases hcr : critical c.qs.q op with
  | none =>
    simp only [hcr] at hs ⊢
    simp only [Option.some.injEq] at hs; subst hs
    have h1 := QObj_access h hown
    have h2 := QObj_ext [(swp k t, .unlock k)] (by simp) h1
    rw [List.append_assoc, List.singleton_append] at h2
    have e : tr ++ [(swp k t, MemEv.access k .queue), (swp k t, .unlock k)] = (tr ++ [(swp k t, MemEv.access k .queue)]) ++ [(swp k t, .unlock k)] := by simp
    refine ⟨fun u op' hu => ?_, fun u op' r hu => ?_, fun i hi => ?_, fun a g ha => ?_, fun u i hu => ?_, fun u i hu => ?_,
      fun u op' i hu => ?_, h2.ord⟩
    · rcases set_get hpc hu with ⟨-, e⟩ | ⟨hne, hu⟩
      · cases e
      · exact absurd (huniq u (h.own1 u op' hu)) hne
    · rcases set_get hpc hu with ⟨-, e⟩ | ⟨hne, hu⟩
      · cases e
      · exact absurd (huniq u (h.own2 u op' r hu)) hne
    · obtain ⟨a, g, g1, g2⟩ := h1.items i hi
      rw [hown] at g2
      rw [e]
      exact ⟨a, g, get_ext _ g1, guard_unlock g2⟩
    · rw [e] at ha ⊢
      rcases get_app1 ha with ha | ⟨-, ha⟩
      · have g2 := h1.acc a g ha
        rw [hown] at g2
        exact guard_unlock g2
      · cases ha
    · rcases set_get hpc hu with ⟨-, e⟩ | ⟨-, hu⟩
      · cases e
      · exact h2.want u i hu
    · rcases set_get hpc hu with ⟨-, e⟩ | ⟨-, hu⟩
      · cases e
      · exact h2.crit u i hu
    · rcases set_get hpc hu with ⟨-, e⟩ | ⟨-, hu⟩
      · cases e
      · exact h2.popped u op' i hu
  | some qr =>
    obtain ⟨q', r⟩ := qr
    simp only [hcr] at hs ⊢
    simp only [Option.some.injEq] at hs; subst hs
    have h1 := QObj_access h hown
    have hitems : ∀ i, .user i ∈ c.qs.q → ∃ (a g : Nat), (tr ++ [(swp k t, MemEv.access k .queue)])[a]? = some (g, .send k i) ∧
        Knows (tr ++ [(swp k t, MemEv.access k .queue)]) (swp k t) a := by
      intro i hi
      obtain ⟨a, g, g1, g2⟩ := h1.items i hi
      rw [hown] at g2
      exact ⟨a, g, g1, g2⟩
    have hq' : ∀ i, .user i ∈ q' → .user i ∈ c.qs.q ∨ op = .push (.user i) := by
      intro i hi
      cases op <;> simp only [critical] at hcr
      · simp only [Option.some.injEq, Prod.mk.injEq] at hcr
        obtain ⟨rfl, -⟩ := hcr
        rcases List.mem_append.mp hi with hi | hi
        · exact .inl hi
        · rw [List.mem_singleton] at hi; rw [hi]; exact .inr rfl
      · split at hcr <;> simp only [Option.some.injEq, Prod.mk.injEq] at hcr <;> obtain ⟨rfl, -⟩ := hcr
        · cases hi
        · rename_i hq; rw [hq]; exact .inl (List.mem_cons_of_mem _ hi)
      · split at hcr <;> simp only [Option.some.injEq, Prod.mk.injEq, reduceCtorEq] at hcr
        obtain ⟨rfl, -⟩ := hcr
        rename_i hq; rw [hq]; exact .inl (List.mem_cons_of_mem _ hi)
      · simp only [Option.some.injEq, Prod.mk.injEq] at hcr; obtain ⟨rfl, -⟩ := hcr; exact .inl hi
      · simp only [Option.some.injEq, Prod.mk.injEq] at hcr; obtain ⟨rfl, -⟩ := hcr; exact .inl hi
    have hr : ∀ i, r = .item (.user i) → .user i ∈ c.qs.q := by
      intro i hi
      subst hi
      cases op <;> simp only [critical] at hcr
      · simp at hcr
      · split at hcr <;> simp only [Option.some.injEq, Prod.mk.injEq, QRes.item.injEq, reduceCtorEq, and_false] at hcr
        rename_i hq; rw [hq, hcr.2]; exact List.mem_cons_self
      · split at hcr <;> simp only [Option.some.injEq, Prod.mk.injEq, QRes.item.injEq, reduceCtorEq] at hcr
        rename_i hq; rw [hq, hcr.2]; exact List.mem_cons_self
      · simp at hcr
      · simp at hcr
    refine ⟨fun u op' hu => ?_, fun u op' r' hu => ?_, fun i hi => ?_, h1.acc, fun u i hu => ?_, fun u i hu => ?_,
      fun u op' i hu => ?_, h1.ord⟩
    · rcases set_get hpc hu with ⟨-, e⟩ | ⟨hne, hu⟩
      · cases e
      · exact h.own1 u op' hu
    · rcases set_get hpc hu with ⟨e1, e⟩ | ⟨hne, hu⟩
      · rw [e1]; exact hown
      · exact h.own2 u op' r' hu
    · rcases hq' i hi with hi | e
      · exact h1.items i hi
      · subst e
        obtain ⟨a, ha⟩ := h1.crit t i hpc
        refine ⟨a, _, ha, ?_⟩
        show Guard _ k c.qs.owner a
        rw [hown]
        exact ⟨a, _, ha, .inl rfl⟩
    · rcases set_get hpc hu with ⟨-, e⟩ | ⟨-, hu⟩
      · cases e
      · exact h1.want u i hu
    · rcases set_get hpc hu with ⟨-, e⟩ | ⟨-, hu⟩
      · cases e
      · exact h1.crit u i hu
    · rcases set_get hpc hu with ⟨e1, e⟩ | ⟨-, hu⟩
      · cases e
        rw [e1]
        exact hitems i (hr i rfl)
      · exact h1.popped u op' i hu

/-- A step that changes no more than the program counters of threads outside the mutex. -/
theorem QObj_pcs {tr : VTr} {k : Nat} {s : QState ATask} {pcs' : List (QPc ATask)} {t' : List (QEv ATask)} (h : QObj tr k s)
    (hp : ∀ (u : Nat) p, pcs'[u]? = some p → s.pcs[u]? = some p ∨ p = .idle ∨ p = .woken) : QObj tr k { s with pcs := pcs', trace := t' } := by
  refine ⟨fun u op hu => ?_, fun u op r hu => ?_, h.items, h.acc, fun u i hu => ?_, fun u i hu => ?_, fun u op i hu => ?_, h.ord⟩
  · rcases hp u _ hu with hu | e | e
    · exact h.own1 u op hu
    · cases e
    · cases e
  · rcases hp u _ hu with hu | e | e
    · exact h.own2 u op r hu
    · cases e
    · cases e
  · rcases hp u _ hu with hu | e | e
    · exact h.want u i hu
    · cases e
    · cases e
  · rcases hp u _ hu with hu | e | e
    · exact h.crit u i hu
    · cases e
    · cases e
  · rcases hp u _ hu with hu | e | e
    · exact h.popped u op i hu
    · cases e
    · cases e

theorem QObj_mem {tr : VTr} {k : Nat} {c : CState} {s' : QState ATask} {l : QLabel ATask} (h : QObj tr k c.qs) (hl : ∀ t op, l ≠ .call t op)
    (hs : qStep c.qs l = some s') : QObj (tr ++ memEvents k c (.mem l)) k s' := by
  cases l with
  | call t op => exact absurd rfl (hl t op)
  | lock t => exact QObj_lock h hs
  | act t => exact QObj_act h hs
  | unlock t => exact QObj_unlock h hs
  | notify t target =>
    have h' := QObj_ext [(swp k t, .notify k)] (by simp) h
    unfold qStep at hs
    simp only at hs
    split at hs
    case h_2 => cases hs
    rename_i hpc
    cases target with
    | none =>
      simp only at hs
      split at hs
      · cases hs
      · simp only [Option.some.injEq] at hs; subst hs
        refine QObj_pcs h' fun u p hu => ?_
        rcases set_get hpc hu with ⟨-, e⟩ | ⟨-, hu⟩
        · exact .inr (.inl e)
        · exact .inl hu
    | some v =>
      simp only at hs
      split at hs
      · rename_i hv
        simp only [Option.some.injEq] at hs; subst hs
        refine QObj_pcs h' fun u p hu => ?_
        by_cases e : u = v
        · subst e
          rw [List.getElem?_set] at hu
          simp only [if_true] at hu
          split at hu
          · simp only [Option.some.injEq] at hu; exact .inr (.inr hu.symm)
          · cases hu
        · rw [List.getElem?_set_ne (fun h => e h.symm)] at hu
          rcases set_get hpc hu with ⟨-, e⟩ | ⟨-, hu⟩
          · exact .inr (.inl e)
          · exact .inl hu
      · cases hs
  | spurious t =>
    have h' := QObj_ext [] (by simp) h
    unfold qStep at hs
    simp only at hs
    split at hs
    case h_2 => cases hs
    rename_i hpc
    simp only [Option.some.injEq] at hs; subst hs
    refine QObj_pcs (t' := c.qs.trace) h' fun u p hu => ?_
    rcases set_get hpc hu with ⟨-, e⟩ | ⟨-, hu⟩
    · exact .inr (.inr e)
    · exact .inl hu

/-- Object `k`. -/
structure VObj (tr : VTr) (k : Nat) (c : CState) : Prop where
  q : QObj tr k c.qs
  run : ∀ i, c.running = some (.user i) → ∃ (a g : Nat), tr[a]? = some (g, .send k i) ∧ Knows tr k a

theorem VObj_ext {tr : VTr} {k : Nat} {c : CState} (e : VTr) (he : ∀ g, (g, MemEv.access k .queue) ∉ e) (h : VObj tr k c) : VObj (tr ++ e) k c := by
  refine ⟨QObj_ext e he h.q, fun i hi => ?_⟩
  obtain ⟨a, g, h1, h2⟩ := h.run i hi
  exact ⟨a, g, get_ext e h1, Knows_ext e h2⟩

theorem VObj_step {tr : VTr} {k : Nat} {c c' : CState} {l : CLabel} (h : VObj tr k c) (hs : cStep c l = some c') :
    VObj (tr ++ memEvents k c l) k c' := by
  have hrun : ∀ (e : VTr) i, c.running = some (.user i) → ∃ (a g : Nat), (tr ++ e)[a]? = some (g, .send k i) ∧ Knows (tr ++ e) k a := by
    intro e i hi
    obtain ⟨a, g, h1, h2⟩ := h.run i hi
    exact ⟨a, g, get_ext e h1, Knows_ext e h2⟩
  cases l with
  | send t i =>
    simp only [cStep] at hs
    split at hs
    · cases hs
    cases hq : qStep c.qs (.call t (.push (.user i))) with
    | none => rw [hq] at hs; cases hs
    | some q' =>
      rw [hq] at hs; simp only [Option.map_some, Option.some.injEq] at hs; subst hs
      exact ⟨QObj_call _ h.q hq (by simp) (by simp), hrun _⟩
  | dtorSend d =>
    simp only [cStep] at hs
    split at hs
    · cases hq : qStep c.qs (.call d (.push .stop)) with
      | none => rw [hq] at hs; cases hs
      | some q' =>
        rw [hq] at hs; simp only [Option.map_some, Option.some.injEq] at hs; subst hs
        exact ⟨QObj_call _ h.q hq (by simp) (by simp), hrun _⟩
    · cases hs
  | mem l =>
    have hl : ∀ t op, l ≠ .call t op := by rintro t op rfl; simp [cStep] at hs
    have hs' : (if c.dtor = .joined then none else (qStep c.qs l).map fun q => { c with qs := q, running := handedOver c l }) = some c' := by
      cases l <;> first | exact hs | exact absurd rfl (hl _ _)
    split at hs'
    · cases hs'
    cases hq : qStep c.qs l with
    | none => rw [hq] at hs'; cases hs'
    | some q' =>
      rw [hq] at hs'; simp only [Option.map_some, Option.some.injEq] at hs'; subst hs'
      refine ⟨QObj_mem h.q hl hq, fun i hi => ?_⟩
      simp only [handedOver] at hi
      split at hi
      · split at hi
        · rename_i hpc
          simp only [Option.some.injEq] at hi; subst hi
          obtain ⟨a, g, h1, h2⟩ := h.q.popped 0 _ i hpc
          rw [swp_zero] at h2
          exact ⟨a, g, get_ext _ h1, Knows_ext _ h2⟩
        · exact hrun _ i hi
      · exact hrun _ i hi
  | enter =>
    simp only [cStep] at hs
    split at hs
    · cases hq : qStep c.qs (.call 0 .waitPop) with
      | none => rw [hq] at hs; cases hs
      | some q' =>
        rw [hq] at hs; simp only [Option.map_some, Option.some.injEq] at hs; subst hs
        have e : memEvents k c .enter = [(swp k 0, .access k .flag)] := by rw [swp_zero]; rfl
        have h0 := QObj_ext [(swp k 0, MemEv.access k .flag)] (by simp) h.q
        rw [e]
        refine ⟨?_, hrun _⟩
        unfold qStep at hq
        simp only at hq
        split at hq
        case h_2 => cases hq
        rename_i hpc
        simp only [Option.some.injEq] at hq; subst hq
        refine ⟨fun u op hu => ?_, fun u op r hu => ?_, h0.items, h0.acc, fun u i hu => ?_, fun u i hu => ?_, fun u op i hu => ?_, h0.ord⟩
        · rcases set_get hpc hu with ⟨-, e⟩ | ⟨-, hu⟩
          · cases e
          · exact h0.own1 u op hu
        · rcases set_get hpc hu with ⟨-, e⟩ | ⟨-, hu⟩
          · cases e
          · exact h0.own2 u op r hu
        · rcases set_get hpc hu with ⟨-, e⟩ | ⟨-, hu⟩
          · cases e
          · exact h0.want u i hu
        · rcases set_get hpc hu with ⟨-, e⟩ | ⟨-, hu⟩
          · cases e
          · exact h0.crit u i hu
        · rcases set_get hpc hu with ⟨-, e⟩ | ⟨-, hu⟩
          · cases e
          · exact h0.popped u op i hu
    · cases hs
  | finish =>
    simp only [cStep] at hs
    split at hs
    · split at hs
      · rename_i i hr
        simp only [Option.some.injEq] at hs; subst hs
        exact ⟨QObj_ext _ (by simp [memEvents, hr]) h.q, by simp⟩
      · rename_i hr
        simp only [Option.some.injEq] at hs; subst hs
        exact ⟨QObj_ext _ (by simp [memEvents, hr]) h.q, by simp⟩
      · cases hs
    · cases hs
  | leave =>
    simp only [cStep] at hs
    split at hs
    · split at hs
      · simp only [Option.some.injEq] at hs; subst hs
        exact ⟨QObj_ext _ (by simp [memEvents]) h.q, hrun _⟩
      · cases hs
    · cases hs
  | join =>
    simp only [cStep] at hs
    split at hs
    · rename_i d hd
      split at hs
      · split at hs
        · simp only [Option.some.injEq] at hs; subst hs
          exact ⟨QObj_ext _ (by simp [memEvents, hd]) h.q, hrun _⟩
        · cases hs
      · cases hs
    · cases hs

/-- The events of a step of object `k` belong to object `k`. -/
theorem memEvents_other {j k : Nat} {c : CState} {l : CLabel} (hjk : j ≠ k) : ∀ g, (g, MemEv.access j .queue) ∉ memEvents k c l := by
  intro g h
  cases l with
  | mem l =>
    cases l <;> simp only [memEvents] at h <;> (repeat' split at h) <;> simp_all
  | _ => simp only [memEvents] at h <;> (repeat' split at h) <;> simp_all

theorem vStep_objs {n : Nat} {s s' : VState} {l : VLabel} (h : ∀ k, VObj s.tr k (s.act k)) (hs : vStep n s l = some s') :
    ∀ k, VObj s'.tr k (s'.act k) := by
  intro j
  cases l with
  | act k l =>
    simp only [vStep] at hs
    split at hs
    · cases hc : cStep (s.act k) l with
      | none => rw [hc] at hs; cases hs
      | some c' =>
        rw [hc] at hs; simp only [Option.map_some, Option.some.injEq] at hs; subst hs
        by_cases e : j = k
        · subst e; simp only [if_true]; exact VObj_step (h j) hc
        · simp only [if_neg e]; exact VObj_ext _ (memEvents_other e) (h j)
    · cases hs
  | work k =>
    simp only [vStep] at hs
    split at hs
    · split at hs
      · simp only [Option.some.injEq] at hs; subst hs; exact VObj_ext _ (by simp) (h j)
      · cases hs
    · cases hs
  | get g k i =>
    simp only [vStep] at hs
    split at hs
    · simp only [Option.some.injEq] at hs; subst hs; exact VObj_ext _ (by simp) (h j)
    · cases hs
  | stop g =>
    simp only [vStep] at hs
    split at hs
    · simp only [Option.some.injEq] at hs; subst hs
      have := VObj_ext [(g, MemEv.ended)] (by simp) (h j)
      by_cases e : j = g
      · subst e; simp only [if_true]; exact ⟨this.q, this.run⟩
      · simp only [if_neg e]; exact this
    · cases hs
  | wait d g =>
    simp only [vStep] at hs
    split at hs
    · simp only [Option.some.injEq] at hs; subst hs; exact VObj_ext _ (by simp) (h j)
    · cases hs

theorem vRun_snoc (n : Nat) (s : VState) (ls : List VLabel) (l : VLabel) : vRun n s (ls ++ [l]) = (vRun n s ls).bind (vStep n · l) := by
  induction ls generalizing s with
  | nil => simp only [List.nil_append, vRun, Option.bind_some]; cases vStep n s l <;> rfl
  | cons x ls ih =>
    simp only [List.cons_append, vRun]
    cases vStep n s x with
    | none => rfl
    | some s1 => exact ih s1

theorem VObj_start (m k : Nat) : VObj [] k (.start m) := by
  have hpc : ∀ (t : Nat) p, (List.replicate m (QPc.idle (T := ATask)))[t]? = some p → p = .idle := by
    intro t p h
    exact List.eq_of_mem_replicate (List.mem_of_getElem? h)
  refine ⟨⟨fun t op h => ?_, fun t op r h => ?_, by simp [CState.start, QState.start], by simp, fun t i h => ?_, fun t i h => ?_, fun t op i h => ?_,
    by simp⟩, by simp [CState.start]⟩ <;> cases hpc _ _ h

theorem vRun_objs {n m : Nat} {ls : List VLabel} {s : VState} (h : vRun n (.start m) ls = some s) : ∀ k, VObj s.tr k (s.act k) := by
  induction ls using List.reverseRecOn generalizing s with
  | nil => simp only [vRun, Option.some.injEq] at h; subst h; exact fun k => VObj_start m k
  | append_singleton ls l ih =>
    rw [vRun_snoc] at h
    cases hr : vRun n (.start m) ls with
    | none => rw [hr] at h; cases h
    | some s1 => rw [hr, Option.bind_some] at h; exact vStep_objs (ih hr) h

theorem q_idle {s s' : QState ATask} {l : QLabel ATask} {u : Nat} (hs : qStep s l = some s') (hu : s.pcs[u]? = some .idle)
    (hl : ∀ op, l ≠ .call u op) : s'.pcs[u]? = some .idle := by
  have key : ∀ (t : Nat) p p', s.pcs[t]? = some p → t ≠ u → (s.pcs.set t p')[u]? = some .idle := by
    intro t p p' _ hne
    rw [List.getElem?_set_ne hne]; exact hu
  have ne : ∀ {t : Nat} {p : QPc ATask}, s.pcs[t]? = some p → p ≠ .idle → t ≠ u := by
    intro t p ht hp e
    rw [e, hu] at ht; cases ht; exact hp rfl
  cases l with
  | call t op =>
    simp only [qStep] at hs
    split at hs
    · rename_i hpc
      simp only [Option.some.injEq] at hs; subst hs
      exact key t _ _ hpc (fun e => hl op (by rw [e]))
    · cases hs
  | lock t =>
    simp only [qStep] at hs
    split at hs
    · cases hs
    · split at hs
      · rename_i hpc; simp only [Option.some.injEq] at hs; subst hs; exact key t _ _ hpc (ne hpc (by simp))
      · rename_i hpc; simp only [Option.some.injEq] at hs; subst hs; exact key t _ _ hpc (ne hpc (by simp))
      · cases hs
  | act t =>
    simp only [qStep] at hs
    split at hs
    · rename_i hpc
      split at hs <;> (simp only [Option.some.injEq] at hs; subst hs; exact key t _ _ hpc (ne hpc (by simp)))
    · cases hs
  | unlock t =>
    simp only [qStep] at hs
    split at hs
    · rename_i hpc; simp only [Option.some.injEq] at hs; subst hs; exact key t _ _ hpc (ne hpc (by simp))
    · rename_i hpc; simp only [Option.some.injEq] at hs; subst hs; exact key t _ _ hpc (ne hpc (by simp))
    · cases hs
  | notify t target =>
    simp only [qStep] at hs
    split at hs
    case h_2 => cases hs
    rename_i hpc
    cases target with
    | none =>
      simp only at hs
      split at hs
      · cases hs
      · simp only [Option.some.injEq] at hs; subst hs; exact key t _ _ hpc (ne hpc (by simp))
    | some v =>
      simp only at hs
      split at hs
      · rename_i hv
        simp only [Option.some.injEq] at hs; subst hs
        simp only
        rw [List.getElem?_set_ne (ne hv (by simp))]
        exact key t _ _ hpc (ne hpc (by simp))
      · cases hs
  | spurious t =>
    simp only [qStep] at hs
    split at hs
    · rename_i hpc; simp only [Option.some.injEq] at hs; subst hs; exact key t _ _ hpc (ne hpc (by simp))
    · cases hs

/-- The queue step inside a step of an object. -/
theorem c_queue {c c' : CState} {l : CLabel} (hs : cStep c l = some c') :
    c'.qs = c.qs ∨ ∃ ql, qStep c.qs ql = some c'.qs ∧
      ((∃ t i, l = .send t i ∧ ql = .call t (.push (.user i))) ∨ (∃ d, l = .dtorSend d ∧ ql = .call d (.push .stop)) ∨
       (l = .enter ∧ ql = .call 0 .waitPop) ∨ (l = .mem ql ∧ ∀ t op, ql ≠ .call t op)) := by
  cases l with
  | send t i =>
    simp only [cStep] at hs
    split at hs
    · cases hs
    cases hq : qStep c.qs (.call t (.push (.user i))) with
    | none => rw [hq] at hs; cases hs
    | some q' =>
      rw [hq] at hs; simp only [Option.map_some, Option.some.injEq] at hs; subst hs
      exact .inr ⟨_, hq, .inl ⟨t, i, rfl, rfl⟩⟩
  | dtorSend d =>
    simp only [cStep] at hs
    split at hs
    · cases hq : qStep c.qs (.call d (.push .stop)) with
      | none => rw [hq] at hs; cases hs
      | some q' =>
        rw [hq] at hs; simp only [Option.map_some, Option.some.injEq] at hs; subst hs
        exact .inr ⟨_, hq, .inr (.inl ⟨d, rfl, rfl⟩)⟩
    · cases hs
  | mem l =>
    have hl : ∀ t op, l ≠ .call t op := by rintro t op rfl; simp [cStep] at hs
    have hs' : (if c.dtor = .joined then none else (qStep c.qs l).map fun q => { c with qs := q, running := handedOver c l }) = some c' := by
      cases l <;> first | exact hs | exact absurd rfl (hl _ _)
    split at hs'
    · cases hs'
    cases hq : qStep c.qs l with
    | none => rw [hq] at hs'; cases hs'
    | some q' =>
      rw [hq] at hs'; simp only [Option.map_some, Option.some.injEq] at hs'; subst hs'
      exact .inr ⟨_, hq, .inr (.inr (.inr ⟨rfl, hl⟩))⟩
  | enter =>
    simp only [cStep] at hs
    split at hs
    · cases hq : qStep c.qs (.call 0 .waitPop) with
      | none => rw [hq] at hs; cases hs
      | some q' =>
        rw [hq] at hs; simp only [Option.map_some, Option.some.injEq] at hs; subst hs
        exact .inr ⟨_, hq, .inr (.inr (.inl ⟨rfl, rfl⟩))⟩
    · cases hs
  | finish =>
    simp only [cStep] at hs
    (repeat' split at hs) <;> first | (cases hs; done) | (simp only [Option.some.injEq] at hs; subst hs; exact .inl rfl)
  | leave =>
    simp only [cStep] at hs
    (repeat' split at hs) <;> first | (cases hs; done) | (simp only [Option.some.injEq] at hs; subst hs; exact .inl rfl)
  | join =>
    simp only [cStep] at hs
    (repeat' split at hs) <;> first | (cases hs; done) | (simp only [Option.some.injEq] at hs; subst hs; exact .inl rfl)

/-- How a step changes the rest of an object. -/
theorem c_fields {c c' : CState} {l : CLabel} (hs : cStep c l = some c') :
    (c'.exited = c.exited ∨ (l = .leave ∧ c'.exited = true ∧ c.exited = false ∧ c'.running = none)) ∧
    (c'.dtor = c.dtor ∨ (∃ d, l = .dtorSend d ∧ d ≠ 0 ∧ c.dtor = .notStarted ∧ c'.dtor = .inside d) ∨
      (∃ d, l = .join ∧ c.dtor = .inside d ∧ c'.dtor = .joined ∧ c.exited = true ∧ c.qs.pcs[d]? = some .idle)) ∧
    (c'.running = c.running ∨ c'.running = none ∨ (∃ p, c.qs.pcs[(0 : Nat)]? = some p ∧ p ≠ .idle)) := by
  cases l with
  | mem l =>
    have hl : ∀ t op, l ≠ .call t op := by rintro t op rfl; simp [cStep] at hs
    have hs' : (if c.dtor = .joined then none else (qStep c.qs l).map fun q => { c with qs := q, running := handedOver c l }) = some c' := by
      cases l <;> first | exact hs | exact absurd rfl (hl _ _)
    split at hs'
    · cases hs'
    cases hq : qStep c.qs l with
    | none => rw [hq] at hs'; cases hs'
    | some q' =>
      rw [hq] at hs'; simp only [Option.map_some, Option.some.injEq] at hs'; subst hs'
      refine ⟨.inl rfl, .inl rfl, ?_⟩
      simp only [handedOver]
      split
      · split
        · rename_i hpc; exact .inr (.inr ⟨_, hpc, by simp⟩)
        · exact .inl rfl
      · exact .inl rfl
  | send t i =>
    simp only [cStep] at hs
    split at hs
    · cases hs
    cases hq : qStep c.qs (.call t (.push (.user i))) with
    | none => rw [hq] at hs; cases hs
    | some q' => rw [hq] at hs; simp only [Option.map_some, Option.some.injEq] at hs; subst hs; exact ⟨.inl rfl, .inl rfl, .inl rfl⟩
  | dtorSend d =>
    simp only [cStep] at hs
    split at hs
    · rename_i hd
      cases hq : qStep c.qs (.call d (.push .stop)) with
      | none => rw [hq] at hs; cases hs
      | some q' =>
        rw [hq] at hs; simp only [Option.map_some, Option.some.injEq] at hs; subst hs
        exact ⟨.inl rfl, .inr (.inl ⟨d, rfl, hd.2, hd.1, rfl⟩), .inl rfl⟩
    · cases hs
  | enter =>
    simp only [cStep] at hs
    split at hs
    · cases hq : qStep c.qs (.call 0 .waitPop) with
      | none => rw [hq] at hs; cases hs
      | some q' => rw [hq] at hs; simp only [Option.map_some, Option.some.injEq] at hs; subst hs; exact ⟨.inl rfl, .inl rfl, .inl rfl⟩
    · cases hs
  | finish =>
    simp only [cStep] at hs
    (repeat' split at hs) <;> first
      | (cases hs; done)
      | (simp only [Option.some.injEq] at hs; subst hs; exact ⟨.inl rfl, .inl rfl, .inr (.inl rfl)⟩)
  | leave =>
    simp only [cStep] at hs
    split at hs
    · split at hs
      · rename_i hc
        simp only [Option.some.injEq] at hs; subst hs
        exact ⟨.inr ⟨rfl, rfl, hc.2.1, hc.2.2⟩, .inl rfl, .inl rfl⟩
      · cases hs
    · cases hs
  | join =>
    simp only [cStep] at hs
    split at hs
    · rename_i d hd
      split at hs
      · rename_i hpc
        split at hs
        · rename_i he
          simp only [Option.some.injEq] at hs; subst hs
          exact ⟨.inl rfl, .inr (.inr ⟨d, rfl, hd, rfl, he, hpc⟩), .inl rfl⟩
        · cases hs
      · cases hs
    · cases hs

theorem vFree_iff {n : Nat} {s : VState} {g : Nat} : vFree n s g = true ↔
    ∀ k < n, (s.act k).qs.pcs[swp k g]? = some .idle ∧ (s.act k).dtor ≠ .inside (swp k g) := by
  unfold vFree
  rw [List.all_eq_true]
  constructor
  · intro h k hk
    have := h k (List.mem_range.mpr hk)
    rw [Bool.and_eq_true, decide_eq_true_eq] at this
    refine ⟨?_, this.2⟩
    have h1 := this.1
    split at h1
    · assumption
    · cases h1
  · intro h k hk
    obtain ⟨h1, h2⟩ := h k (List.mem_range.mp hk)
    rw [h1]; simpa using h2

/-- The threads of the objects. -/
structure VThr (n : Nat) (s : VState) : Prop where
  bound : ∀ k, n ≤ k → (s.act k).running = none ∧ (s.act k).dtor = .notStarted
  ended : ∀ k, (s.act k).exited = true → ∃ c : Nat, s.tr[c]? = some (k, .ended) ∧ ∀ (a : Nat) e, s.tr[a]? = some (k, e) → a ≤ c
  quiet : ∀ k, (s.act k).exited = true → (s.act k).running = none ∧
    ∀ j < n, (s.act j).qs.pcs[swp j k]? = some .idle ∧ (s.act j).dtor ≠ .inside (swp j k)
  joined : ∀ k, (s.act k).dtor = .joined → (s.act k).exited = true
  inside : ∀ k d, (s.act k).dtor = .inside d → d ≠ 0 ∧ ∃ a : Nat, s.tr[a]? = some (swp k d, .dtor k)
  flag : ∀ (a g k : Nat), s.tr[a]? = some (g, .access k .flag) → g = k
  join : ∀ (b d k : Nat), s.tr[b]? = some (d, .joined k) → (s.act k).exited = true ∧ ∀ (a : Nat) e, s.tr[a]? = some (k, e) → HB s.tr a b
  destroy : ∀ (b d k : Nat), s.tr[b]? = some (d, .destroy k) → (s.act k).dtor = .joined ∧
    (∀ (a g : Nat) e, s.tr[a]? = some (g, e) → Touches k e → a ≤ b) ∧ (∀ (a : Nat) e, s.tr[a]? = some (k, e) → HB s.tr a b) ∧
    ∃ c : Nat, c < b ∧ s.tr[c]? = some (d, .dtor k)

theorem c_mem {c c' : CState} {l : QLabel ATask} (hs : cStep c (.mem l) = some c') :
    c.dtor ≠ .joined ∧ (∀ t op, l ≠ .call t op) ∧ ∃ q', qStep c.qs l = some q' := by
  have hl : ∀ t op, l ≠ .call t op := by rintro t op rfl; simp [cStep] at hs
  have hs' : (if c.dtor = .joined then none else (qStep c.qs l).map fun q => { c with qs := q, running := handedOver c l }) = some c' := by
    cases l <;> first | exact hs | exact absurd rfl (hl _ _)
  split at hs'
  · cases hs'
  · rename_i hd
    cases hq : qStep c.qs l with
    | none => rw [hq] at hs'; cases hs'
    | some q' => exact ⟨hd, hl, q', rfl⟩

theorem mem_thread {k : Nat} {c : CState} {l : QLabel ATask} {q' : QState ATask} (hl : ∀ t op, l ≠ .call t op) (hs : qStep c.qs l = some q') :
    ∀ x ∈ memEvents k c (.mem l), ∃ (t : Nat) (p : QPc ATask), x.1 = swp k t ∧ c.qs.pcs[t]? = some p ∧ p ≠ .idle := by
  intro x hx
  cases l with
  | call t op => exact absurd rfl (hl t op)
  | lock t =>
    simp only [memEvents, List.mem_singleton] at hx; subst hx
    simp only [qStep] at hs
    split at hs
    · cases hs
    · split at hs
      · rename_i hpc; exact ⟨t, _, rfl, hpc, by simp⟩
      · rename_i hpc; exact ⟨t, _, rfl, hpc, by simp⟩
      · cases hs
  | act t =>
    simp only [memEvents] at hx
    split at hx
    · rename_i hpc
      refine ⟨t, _, ?_, hpc, by simp⟩
      split at hx <;> simp only [List.mem_cons, List.not_mem_nil, or_false] at hx
      · rw [hx]
      · rcases hx with hx | hx <;> rw [hx]
    · cases hx
  | unlock t =>
    simp only [memEvents, List.mem_singleton] at hx; subst hx
    simp only [qStep] at hs
    split at hs
    · rename_i hpc; exact ⟨t, _, rfl, hpc, by simp⟩
    · rename_i hpc; exact ⟨t, _, rfl, hpc, by simp⟩
    · cases hs
  | notify t target =>
    simp only [memEvents, List.mem_singleton] at hx; subst hx
    simp only [qStep] at hs
    split at hs
    · rename_i hpc; exact ⟨t, _, rfl, hpc, by simp⟩
    · cases hs
  | spurious t => simp [memEvents] at hx

theorem may_live {n : Nat} {s : VState} (h : VThr n s) {g : Nat} (hm : vMay n s g = true) : (s.act g).exited = false := by
  cases he : (s.act g).exited with
  | false => rfl
  | true =>
    exfalso
    obtain ⟨q1, -⟩ := h.quiet _ he
    unfold vMay at hm
    simp [he, q1, inUserTask] at hm

/-- A thread that has ended takes part in no step. -/
theorem live_events {n : Nat} {s : VState} (h : VThr n s) {k : Nat} {l : CLabel} (hk : k < n) (hc : vCond n s k l = true) {c' : CState}
    (hs : cStep (s.act k) l = some c') : ∀ x ∈ memEvents k (s.act k) l, (s.act x.1).exited = false := by
  intro x hx
  cases he : (s.act x.1).exited with
  | false => rfl
  | true =>
  exfalso
  obtain ⟨q1, q2⟩ := h.quiet _ he
  have hmay : vMay n s x.1 = true → False := by
    intro hm; have := may_live h hm; rw [he] at this; cases this
  cases l with
  | send t i => simp only [memEvents, List.mem_singleton] at hx; subst hx; exact hmay hc
  | dtorSend t => simp only [memEvents, List.mem_singleton] at hx; subst hx; exact hmay hc
  | mem l =>
    obtain ⟨-, hl, q', hq⟩ := c_mem hs
    obtain ⟨t, p, e1, e2, e3⟩ := mem_thread hl hq x hx
    have := (q2 k hk).1
    rw [e1, swp_swp, e2] at this
    cases this; exact e3 rfl
  | enter =>
    simp only [memEvents, List.mem_singleton] at hx; subst hx
    simp only [cStep] at hs
    split at hs
    · rename_i hh; rw [hh.2.1] at he; cases he
    · cases hs
  | finish =>
    have hx1 : x.1 = k := by
      simp only [memEvents] at hx
      split at hx <;> simp_all
    rw [hx1] at q1
    simp only [cStep, q1] at hs
    split at hs <;> cases hs
  | leave =>
    have hx1 : x.1 = k := by
      simp only [memEvents, List.mem_cons, List.not_mem_nil, or_false] at hx
      rcases hx with hx | hx <;> rw [hx]
    rw [hx1] at he
    simp only [cStep, he] at hs
    split at hs
    · simp at hs
    · cases hs
  | join =>
    simp only [memEvents] at hx
    split at hx
    · rename_i d hd
      have hx1 : x.1 = swp k d := by
        simp only [List.mem_cons, List.not_mem_nil, or_false] at hx
        rcases hx with hx | hx <;> rw [hx]
      have := (q2 k hk).2
      rw [hx1, swp_swp] at this
      exact this hd
    · cases hx

/-- No event touches an object that has been destroyed. -/
theorem dead_events {n : Nat} {s : VState} (h : VThr n s) {k : Nat} {l : CLabel} {c' : CState}
    (hs : cStep (s.act k) l = some c') : ∀ x ∈ memEvents k (s.act k) l, ∀ j, Touches j x.2 → j = k ∧ (s.act k).dtor ≠ .joined := by
  intro x hx j hj
  have hdead : (s.act k).dtor = .joined → (s.act k).exited = true ∧ (s.act k).running = none :=
    fun e => ⟨h.joined k e, (h.quiet k (h.joined k e)).1⟩
  cases l with
  | send t i => simp only [memEvents, List.mem_singleton] at hx; subst hx; exact hj.elim
  | dtorSend t => simp only [memEvents, List.mem_singleton] at hx; subst hx; exact hj.elim
  | mem l =>
    obtain ⟨hd, hl, q', hq⟩ := c_mem hs
    refine ⟨?_, hd⟩
    cases l with
    | call t op => exact absurd rfl (hl t op)
    | act t =>
      simp only [memEvents] at hx
      split at hx
      · split at hx <;> simp only [List.mem_cons, List.not_mem_nil, or_false] at hx
        · rw [hx] at hj; exact hj.symm
        · rcases hx with hx | hx <;> (rw [hx] at hj; exact hj.symm)
      · cases hx
    | spurious t => simp [memEvents] at hx
    | lock t => simp only [memEvents, List.mem_singleton] at hx; subst hx; exact hj.symm
    | unlock t => simp only [memEvents, List.mem_singleton] at hx; subst hx; exact hj.symm
    | notify t _ => simp only [memEvents, List.mem_singleton] at hx; subst hx; exact hj.symm
  | enter =>
    simp only [memEvents, List.mem_singleton] at hx; subst hx
    refine ⟨hj.symm, fun e => ?_⟩
    simp only [cStep, (hdead e).1] at hs
    simp at hs
  | finish =>
    constructor
    · simp only [memEvents] at hx
      split at hx <;> simp only [List.mem_singleton, List.not_mem_nil] at hx
      · rw [hx] at hj; exact hj.elim
      · rw [hx] at hj; exact hj.symm
    · intro e
      simp only [cStep, (hdead e).2] at hs
      split at hs <;> cases hs
  | leave =>
    constructor
    · simp only [memEvents, List.mem_cons, List.not_mem_nil, or_false] at hx
      rcases hx with hx | hx
      · rw [hx] at hj; exact hj.symm
      · rw [hx] at hj; exact hj.elim
    · intro e
      simp only [cStep, (hdead e).1] at hs
      split at hs
      · simp at hs
      · cases hs
  | join =>
    simp only [memEvents] at hx
    split at hx
    · rename_i d hd
      refine ⟨?_, by rw [hd]; simp⟩
      simp only [List.mem_cons, List.not_mem_nil, or_false] at hx
      rcases hx with hx | hx
      · rw [hx] at hj; exact hj.elim
      · rw [hx] at hj; exact hj.symm
    · cases hx

/-- Events that change nothing for objects and threads, by live threads, that touch no destroyed object. -/
theorem VThr_ext {n : Nat} {s : VState} (h : VThr n s) (e : VTr) (act' : Nat → CState)
    (hlive : ∀ x ∈ e, (s.act x.1).exited = false)
    (htouch : ∀ x ∈ e, ∀ j, Touches j x.2 → (s.act j).dtor ≠ .joined)
    (hflag : ∀ x ∈ e, ∀ j, x.2 = .access j .flag → x.1 = j)
    (hspec : ∀ x ∈ e, ∀ j, x.2 ≠ .joined j ∧ x.2 ≠ .destroy j)
    (hbound : ∀ k, n ≤ k → act' k = s.act k)
    (hex : ∀ k, (act' k).exited = (s.act k).exited)
    (hquiet : ∀ k, (s.act k).exited = true → (act' k).running = none ∧
      ∀ j < n, (act' j).qs.pcs[swp j k]? = some .idle ∧ (act' j).dtor ≠ .inside (swp j k))
    (hjoin : ∀ k, (act' k).dtor = .joined ↔ (s.act k).dtor = .joined)
    (hin : ∀ k d, (act' k).dtor = .inside d → (s.act k).dtor = .inside d ∨ (d ≠ 0 ∧ (swp k d, MemEv.dtor k) ∈ e)) :
    VThr n { act := act', tr := s.tr ++ e } := by
  have hold : ∀ (a k : Nat) y, (s.tr ++ e)[a]? = some (k, y) → (s.act k).exited = true → s.tr[a]? = some (k, y) := by
    intro a k y ha hk
    rcases get_app ha with ha | ⟨-, ha⟩
    · exact ha
    · have := hlive _ (List.mem_of_getElem? ha); rw [hk] at this; cases this
  refine ⟨fun k hk => ?_, fun k hk => ?_, fun k hk => ?_, fun k hk => ?_, fun k d hd => ?_, fun a g k ha => ?_, fun b d k hb => ?_,
    fun b d k hb => ?_⟩
  · simp only [hbound k hk]; exact h.bound k hk
  · simp only [hex] at hk
    obtain ⟨c, h1, h2⟩ := h.ended k hk
    exact ⟨c, get_ext e h1, fun a y ha => h2 a y (hold a k y ha hk)⟩
  · simp only [hex] at hk; exact hquiet k hk
  · simp only [hex]; exact h.joined k ((hjoin k).mp hk)
  · rcases hin k d hd with hd | ⟨h1, h2⟩
    · obtain ⟨h1, a, h2⟩ := h.inside k d hd
      exact ⟨h1, a, get_ext e h2⟩
    · obtain ⟨i, hi, hi'⟩ := List.getElem_of_mem h2
      refine ⟨h1, s.tr.length + i, ?_⟩
      simp only
      rw [List.getElem?_append_right (by omega), Nat.add_sub_cancel_left, List.getElem?_eq_getElem hi, hi']
  · rcases get_app ha with ha | ⟨-, ha⟩
    · exact h.flag a g k ha
    · exact hflag _ (List.mem_of_getElem? ha) k rfl
  · rcases get_app hb with hb | ⟨-, hb⟩
    · obtain ⟨h1, h2⟩ := h.join b d k hb
      refine ⟨by simp only [hex]; exact h1, fun a y ha => HB_ext e (h2 a y (hold a k y ha h1))⟩
    · exact absurd rfl (hspec _ (List.mem_of_getElem? hb) k).1
  · rcases get_app hb with hb | ⟨-, hb⟩
    · obtain ⟨h1, h2, h3, c, h4, h5⟩ := h.destroy b d k hb
      refine ⟨(hjoin k).mpr h1, fun a g y ha ht => ?_, fun a y ha => HB_ext e (h3 a y (hold a k y ha (h.joined k h1))), c, h4, get_ext e h5⟩
      rcases get_app ha with ha | ⟨-, ha⟩
      · exact h2 a g y ha ht
      · exact absurd h1 (htouch _ (List.mem_of_getElem? ha) k ht)
    · exact absurd rfl (hspec _ (List.mem_of_getElem? hb) k).2

theorem VThr_end {n : Nat} {act : Nat → CState} {tr : VTr} (h1 : VThr n { act := act, tr := tr }) {k : Nat} (hc : vFree n { act := act, tr := tr } k = true)
    (hex : (act k).exited = false) (hrun : (act k).running = none) (hnj : (act k).dtor ≠ .joined) :
    VThr n { act := fun j => if j = k then { act k with exited := true } else act j, tr := tr ++ [(k, .ended)] } := by
  have hex2 : ∀ j, ((if j = k then { act k with exited := true } else act j : CState)).exited = true → j = k ∨ (j ≠ k ∧ (act j).exited = true) := by
    intro j hj
    by_cases e : j = k
    · exact .inl e
    · rw [if_neg e] at hj; exact .inr ⟨e, hj⟩
  have hqs : ∀ j, ((if j = k then { act k with exited := true } else act j : CState)).qs = (act j).qs := by
    intro j; split
    · rename_i e; rw [e]
    · rfl
  have hdt : ∀ j, ((if j = k then { act k with exited := true } else act j : CState)).dtor = (act j).dtor := by
    intro j; split
    · rename_i e; rw [e]
    · rfl
  have hrn : ∀ j, ((if j = k then { act k with exited := true } else act j : CState)).running = (act j).running := by
    intro j; split
    · rename_i e; rw [e]
    · rfl
  have hexm : ∀ j, (act j).exited = true → ((if j = k then { act k with exited := true } else act j : CState)).exited = true := by
    intro j hj; split
    · rfl
    · exact hj
  have hold : ∀ (a j : Nat) y, (tr ++ [(k, MemEv.ended)])[a]? = some (j, y) → j ≠ k → tr[a]? = some (j, y) := by
    intro a j y ha hj
    rcases get_app1 ha with ha | ⟨-, ha⟩
    · exact ha
    · cases ha; exact absurd rfl hj
  refine ⟨fun j hj => ?_, fun j hj => ?_, fun j hj => ?_, fun j hj => ?_, fun j d hd => ?_, fun a g j ha => ?_, fun b d j hb => ?_,
    fun b d j hb => ?_⟩
  · simp only [hrn, hdt]; exact h1.bound j hj
  · rcases hex2 j hj with rfl | ⟨hne, hj⟩
    · exact ⟨tr.length, get_last _ _, fun a e ha => by have := (List.getElem?_eq_some_iff.mp ha).1; simp at this; omega⟩
    · obtain ⟨c, g1, g2⟩ := h1.ended j hj
      exact ⟨c, get_ext _ g1, fun a e ha => g2 a e (hold a j e ha hne)⟩
  · simp only [hqs, hdt, hrn]
    rcases hex2 j hj with rfl | ⟨hne, hj⟩
    · exact ⟨hrun, vFree_iff.mp hc⟩
    · exact h1.quiet j hj
  · simp only [hdt] at hj; exact hexm j (h1.joined j hj)
  · simp only [hdt] at hd
    obtain ⟨g1, a, g2⟩ := h1.inside j d hd
    exact ⟨g1, a, get_ext _ g2⟩
  · rcases get_app1 ha with ha | ⟨-, ha⟩
    · exact h1.flag a g j ha
    · cases ha
  · rcases get_app1 hb with hb | ⟨-, hb⟩
    · obtain ⟨g1, g2⟩ := h1.join b d j hb
      have hne : j ≠ k := by rintro rfl; simp only [hex] at g1; cases g1
      exact ⟨hexm j g1, fun a y ha => HB_ext _ (g2 a y (hold a j y ha hne))⟩
    · cases hb
  · rcases get_app1 hb with hb | ⟨-, hb⟩
    · obtain ⟨g1, g2, g3, c, g4, g5⟩ := h1.destroy b d j hb
      have hne : j ≠ k := by rintro rfl; exact hnj g1
      refine ⟨by simp only [hdt]; exact g1, fun a g y ha ht => ?_, fun a y ha => HB_ext _ (g3 a y (hold a j y ha hne)), c, g4, get_ext _ g5⟩
      rcases get_app1 ha with ha | ⟨-, ha⟩
      · exact g2 a g y ha ht
      · cases ha; exact ht.elim
    · cases hb

theorem VThr_leave {n : Nat} {s : VState} (h : VThr n s) {k : Nat} {c' : CState} (hk : k < n) (hc : vFree n s k = true)
    (hs : cStep (s.act k) .leave = some c') :
    VThr n { act := fun j => if j = k then c' else s.act j, tr := s.tr ++ [(k, .access k .flag), (k, .ended)] } := by
  simp only [cStep] at hs
  split at hs
  case h_2 => cases hs
  split at hs
  case isFalse => cases hs
  rename_i hcond
  obtain ⟨hf, hex, hrun⟩ := hcond
  simp only [Option.some.injEq] at hs; subst hs
  have hnj : (s.act k).dtor ≠ .joined := fun e => by have := h.joined k e; rw [hex] at this; cases this
  have h1 : VThr n { act := s.act, tr := s.tr ++ [(k, .access k .flag)] } := by
    refine VThr_ext h _ s.act ?_ ?_ ?_ ?_ (fun _ _ => rfl) (fun _ => rfl) (fun k hk => h.quiet k hk) (fun _ => Iff.rfl) (fun k d hd => .inl hd)
    · intro x hx; rw [List.mem_singleton] at hx; subst hx; exact hex
    · intro x hx j hj; rw [List.mem_singleton] at hx; subst hx; rw [← show k = j from hj]; exact hnj
    · intro x hx j hj; rw [List.mem_singleton] at hx; subst hx; simpa using hj
    · intro x hx j; rw [List.mem_singleton] at hx; subst hx; simp
  have etr : s.tr ++ [(k, MemEv.access k .flag), (k, .ended)] = (s.tr ++ [(k, MemEv.access k .flag)]) ++ [(k, .ended)] := by simp
  rw [etr]
  exact VThr_end h1 hc hex hrun hnj

theorem VThr_wait {n : Nat} {s : VState} (h : VThr n s) {d k : Nat} (hex : (s.act k).exited = true) (hlive : (s.act d).exited = false) :
    VThr n { s with tr := s.tr ++ [(d, .joined k)] } := by
  obtain ⟨ce, he1, he2⟩ := h.ended k hex
  have hce := (List.getElem?_eq_some_iff.mp he1).1
  have hne : ∀ j, (s.act j).exited = true → j ≠ d := by
    rintro j hj rfl; rw [hlive] at hj; cases hj
  have hold : ∀ (a j : Nat) y, (s.tr ++ [(d, MemEv.joined k)])[a]? = some (j, y) → j ≠ d → s.tr[a]? = some (j, y) := by
    intro a j y ha hj
    rcases get_app1 ha with ha | ⟨-, ha⟩
    · exact ha
    · cases ha; exact absurd rfl hj
  refine ⟨h.bound, fun j hj => ?_, h.quiet, h.joined, fun j d' hd' => ?_, fun a g' j ha => ?_, fun b d' j hb => ?_, fun b d' j hb => ?_⟩
  · obtain ⟨c, g1, g2⟩ := h.ended j hj
    exact ⟨c, get_ext _ g1, fun a e ha => g2 a e (hold a j e ha (hne j hj))⟩
  · obtain ⟨g1, a, g2⟩ := h.inside j d' hd'
    exact ⟨g1, a, get_ext _ g2⟩
  · rcases get_app1 ha with ha | ⟨-, ha⟩
    · exact h.flag a g' j ha
    · cases ha
  · rcases get_app1 hb with hb | ⟨hb1, hb2⟩
    · obtain ⟨g1, g2⟩ := h.join b d' j hb
      exact ⟨g1, fun a y ha => HB_ext _ (g2 a y (hold a j y ha (hne j g1)))⟩
    · cases hb2
      refine ⟨hex, fun a y ha => ?_⟩
      have ha' := hold a k y ha (hne k hex)
      have hth : HB (s.tr ++ [(d, .joined k)]) ce s.tr.length := .edge (.thread hce (get_ext _ he1) (get_last _ _))
      rw [hb1]
      rcases Nat.lt_or_ge a ce with hlt | hge
      · exact .trans (.edge (.po hlt ha (get_ext _ he1))) hth
      · have := he2 a y ha'
        have : a = ce := by omega
        rw [this]; exact hth
  · rcases get_app1 hb with hb | ⟨-, hb⟩
    · obtain ⟨g1, g2, g3, c, g4, g5⟩ := h.destroy b d' j hb
      refine ⟨g1, fun a g' y ha ht => ?_, fun a y ha => HB_ext _ (g3 a y (hold a j y ha (hne j (h.joined j g1)))), c, g4, get_ext _ g5⟩
      rcases get_app1 ha with ha | ⟨-, ha⟩
      · exact g2 a g' y ha ht
      · cases ha; exact ht.elim
    · cases hb

theorem VThr_join {n : Nat} {s : VState} (h : VThr n s) {k : Nat} {c' : CState} (hk : k < n)
    (hs : cStep (s.act k) .join = some c') :
    VThr n { act := fun j => if j = k then c' else s.act j, tr := s.tr ++ memEvents k (s.act k) .join } := by
  simp only [cStep] at hs
  split at hs
  case h_2 => cases hs
  rename_i d hd
  split at hs
  case h_2 => cases hs
  split at hs
  case isFalse => cases hs
  rename_i hex
  simp only [Option.some.injEq] at hs; subst hs
  obtain ⟨hd0, c0, hc0⟩ := h.inside k d hd
  have hgk : swp k d ≠ k := by
    intro e
    have := congrArg (swp k) e
    rw [swp_swp, swp_self] at this
    exact hd0 this
  simp only [memEvents, hd]
  obtain ⟨ce, he1, he2⟩ := h.ended k hex
  generalize hg : swp k d = g at *
  have hce := (List.getElem?_eq_some_iff.mp he1).1
  have hc0l := (List.getElem?_eq_some_iff.mp hc0).1
  -- everything the thread did is before the return of join
  have hB1 : ∀ (a : Nat) y, s.tr[a]? = some (k, y) → HB (s.tr ++ [(g, .joined k), (g, .destroy k)]) a s.tr.length := by
    intro a y ha
    have hlast : (s.tr ++ [(g, MemEv.joined k), (g, .destroy k)])[s.tr.length]? = some (g, .joined k) := by simp
    have hth : HB (s.tr ++ [(g, .joined k), (g, .destroy k)]) ce s.tr.length := .edge (.thread hce (get_ext _ he1) hlast)
    rcases Nat.lt_or_ge a ce with hlt | hge
    · exact .trans (.edge (.po hlt (get_ext _ ha) (get_ext _ he1))) hth
    · have := he2 a y ha
      have : a = ce := by omega
      rw [this]; exact hth
  have hB2 : HB (s.tr ++ [(g, .joined k), (g, .destroy k)]) s.tr.length (s.tr.length + 1) :=
    .edge (.po (g := g) (e := .joined k) (e' := .destroy k) (by omega) (by simp) (by simp))
  have hcase : ∀ (a : Nat) x, (s.tr ++ [(g, MemEv.joined k), (g, .destroy k)])[a]? = some x →
      s.tr[a]? = some x ∨ (a = s.tr.length ∧ x = (g, .joined k)) ∨ (a = s.tr.length + 1 ∧ x = (g, .destroy k)) := by
    intro a x ha
    rw [show s.tr ++ [(g, MemEv.joined k), (g, .destroy k)] = (s.tr ++ [(g, MemEv.joined k)]) ++ [(g, .destroy k)] by simp] at ha
    rcases get_app1 ha with ha | ⟨h1, h2⟩
    · rcases get_app1 ha with ha | ⟨h1, h2⟩
      · exact .inl ha
      · exact .inr (.inl ⟨h1, h2⟩)
    · refine .inr (.inr ⟨by simpa using h1, h2⟩)
  have hlive : (s.act g).exited = false := by
    cases he : (s.act g).exited with
    | false => rfl
    | true =>
      have := ((h.quiet g he).2 k hk).2
      rw [← hg, swp_swp] at this
      exact absurd hd this
  have hold : ∀ (a j : Nat) y, (s.tr ++ [(g, MemEv.joined k), (g, .destroy k)])[a]? = some (j, y) → j ≠ g → s.tr[a]? = some (j, y) := by
    intro a j y ha hj
    rcases hcase a _ ha with ha | ⟨-, ha⟩ | ⟨-, ha⟩
    · exact ha
    · cases ha; exact absurd rfl hj
    · cases ha; exact absurd rfl hj
  have hqs : ∀ j, ((if j = k then { s.act k with dtor := .joined } else s.act j : CState)).qs = (s.act j).qs := by
    intro j; split
    · rename_i e; rw [e]
    · rfl
  have hexe : ∀ j, ((if j = k then { s.act k with dtor := .joined } else s.act j : CState)).exited = (s.act j).exited := by
    intro j; split
    · rename_i e; rw [e]
    · rfl
  have hrn : ∀ j, ((if j = k then { s.act k with dtor := .joined } else s.act j : CState)).running = (s.act j).running := by
    intro j; split
    · rename_i e; rw [e]
    · rfl
  have hne : ∀ j, (s.act j).exited = true → j ≠ g := by
    rintro j hj rfl; rw [hlive] at hj; cases hj
  refine ⟨fun j hj => ?_, fun j hj => ?_, fun j hj => ?_, fun j hj => ?_, fun j d' hd' => ?_, fun a g' j ha => ?_, fun b d' j hb => ?_,
    fun b d' j hb => ?_⟩
  · simp only [hrn, if_neg (show j ≠ k by omega)]; exact h.bound j hj
  · simp only [hexe] at hj
    obtain ⟨c, g1, g2⟩ := h.ended j hj
    exact ⟨c, get_ext _ g1, fun a e ha => g2 a e (hold a j e ha (hne j hj))⟩
  · simp only [hexe] at hj
    simp only [hqs, hrn]
    obtain ⟨g1, g2⟩ := h.quiet j hj
    refine ⟨g1, fun i hi => ⟨(g2 i hi).1, ?_⟩⟩
    split
    · simp
    · exact (g2 i hi).2
  · simp only [hexe]
    by_cases e : j = k
    · rw [e]; exact hex
    · simp only [if_neg e] at hj; exact h.joined j hj
  · by_cases e : j = k
    · simp only [if_pos e] at hd'; cases hd'
    · simp only [if_neg e] at hd'
      obtain ⟨g1, a, g2⟩ := h.inside j d' hd'
      exact ⟨g1, a, get_ext _ g2⟩
  · rcases hcase a _ ha with ha | ⟨-, ha⟩ | ⟨-, ha⟩
    · exact h.flag a g' j ha
    · cases ha
    · cases ha
  · simp only [hexe]
    rcases hcase b _ hb with hb | ⟨hb1, hb2⟩ | ⟨-, hb⟩
    · obtain ⟨g1, g2⟩ := h.join b d' j hb
      exact ⟨g1, fun a y ha => HB_ext _ (g2 a y (hold a j y ha (hne j g1)))⟩
    · cases hb2
      refine ⟨hex, fun a y ha => ?_⟩
      rw [hb1]
      exact hB1 a y (hold a k y ha (fun e => hgk e.symm))
    · cases hb
  · rcases hcase b _ hb with hb | ⟨-, hb⟩ | ⟨hb1, hb2⟩
    · obtain ⟨g1, g2, g3, c, g4, g5⟩ := h.destroy b d' j hb
      have hjk : j ≠ k := by rintro rfl; rw [hd] at g1; cases g1
      refine ⟨by simp only [if_neg hjk]; exact g1, fun a g' y ha ht => ?_, fun a y ha => HB_ext _ (g3 a y (hold a j y ha (hne j (h.joined j g1)))), c, g4, get_ext _ g5⟩
      rcases hcase a _ ha with ha | ⟨-, ha⟩ | ⟨-, ha⟩
      · exact g2 a g' y ha ht
      · cases ha; exact ht.elim
      · cases ha; exact absurd ht.symm hjk
    · cases hb
    · cases hb2
      refine ⟨by simp only [if_true], fun a g' y ha ht => ?_, fun a y ha => ?_, c0, by omega, get_ext _ hc0⟩
      · have := (List.getElem?_eq_some_iff.mp ha).1; simp at this; omega
      · rw [hb1]
        exact .trans (hB1 a y (hold a k y ha (fun e => hgk e.symm))) hB2

theorem vStep_thr {n : Nat} {s s' : VState} {l : VLabel} (h : VThr n s) (hs : vStep n s l = some s') : VThr n s' := by
  cases l with
  | work k =>
    simp only [vStep] at hs
    split at hs
    case h_2 => cases hs
    rename_i i hr
    split at hs
    case isFalse => cases hs
    simp only [Option.some.injEq] at hs; subst hs
    refine VThr_ext h _ s.act ?_ ?_ ?_ ?_ (fun _ _ => rfl) (fun _ => rfl) (fun k hk => h.quiet k hk) (fun _ => Iff.rfl) (fun k d hd => .inl hd)
    · intro x hx; rw [List.mem_singleton] at hx; subst hx
      cases he : (s.act k).exited with
      | false => rfl
      | true => have := (h.quiet k he).1; rw [hr] at this; cases this
    · intro x hx j hj; rw [List.mem_singleton] at hx; subst hx; exact hj.elim
    · intro x hx j hj; rw [List.mem_singleton] at hx; subst hx; simp at hj
    · intro x hx j; rw [List.mem_singleton] at hx; subst hx; simp
  | get g k i =>
    simp only [vStep] at hs
    split at hs
    case isFalse => cases hs
    rename_i hc
    simp only [Option.some.injEq] at hs; subst hs
    refine VThr_ext h _ s.act ?_ ?_ ?_ ?_ (fun _ _ => rfl) (fun _ => rfl) (fun k hk => h.quiet k hk) (fun _ => Iff.rfl) (fun k d hd => .inl hd)
    · intro x hx; rw [List.mem_singleton] at hx; subst hx; exact may_live h hc.2.2
    · intro x hx j hj; rw [List.mem_singleton] at hx; subst hx; exact hj.elim
    · intro x hx j hj; rw [List.mem_singleton] at hx; subst hx; simp at hj
    · intro x hx j; rw [List.mem_singleton] at hx; subst hx; simp
  | stop g =>
    simp only [vStep] at hs
    split at hs
    case isFalse => cases hs
    rename_i hc
    simp only [Option.some.injEq] at hs; subst hs
    obtain ⟨b1, b2⟩ := h.bound g hc.1
    refine VThr_end h ?_ (may_live h hc.2) b1 (by rw [b2]; exact fun e => by cases e)
    have := hc.2
    simp only [vMay, Bool.and_eq_true] at this
    exact this.1
  | wait d g =>
    simp only [vStep] at hs
    split at hs
    case isFalse => cases hs
    rename_i hc
    simp only [Option.some.injEq] at hs; subst hs
    exact VThr_wait h hc.2.1 (may_live h hc.2.2)
  | act k l =>
    simp only [vStep] at hs
    split at hs
    case isFalse => cases hs
    rename_i hc
    obtain ⟨hk, hc⟩ := hc
    cases hcs : cStep (s.act k) l with
    | none => rw [hcs] at hs; cases hs
    | some c' =>
    rw [hcs] at hs; simp only [Option.map_some, Option.some.injEq] at hs; subst hs
    by_cases hl1 : l = .leave
    · subst hl1; exact VThr_leave h hk hc hcs
    by_cases hl2 : l = .join
    · subst hl2; exact VThr_join h hk hcs
    obtain ⟨f1, f2, f3⟩ := c_fields hcs
    replace f1 : c'.exited = (s.act k).exited := f1.resolve_right (fun e => hl1 e.1)
    have hlive := live_events h hk hc hcs
    have hdead := dead_events h hcs
    -- a call on object k by local thread t: that thread lives
    have hcall : ∀ t, (∃ i, l = .send t i) ∨ l = .dtorSend t → (s.act (swp k t)).exited = false := by
      rintro t (⟨i, rfl⟩ | rfl)
      · exact may_live h hc
      · exact may_live h hc
    refine VThr_ext h _ _ hlive (fun x hx j hj => ?_) (fun x hx j hj => ?_) (fun x hx j => ?_) (fun j hj => ?_) (fun j => ?_) (fun g hg => ?_)
      (fun j => ?_) (fun j d hd => ?_)
    · obtain ⟨e, h2⟩ := hdead x hx j hj; rw [e]; exact h2
    · cases l with
      | mem l =>
        cases l <;> simp only [memEvents] at hx <;> (repeat' split at hx) <;> simp_all
        rcases hx with rfl | rfl <;> simp at hj
      | leave => exact absurd rfl hl1
      | join => exact absurd rfl hl2
      | _ => simp only [memEvents] at hx; (repeat' split at hx) <;> simp_all
    · cases l with
      | mem l =>
        cases l <;> simp only [memEvents] at hx <;> (repeat' split at hx) <;> simp_all
        rcases hx with rfl | rfl <;> simp
      | leave => exact absurd rfl hl1
      | join => exact absurd rfl hl2
      | _ => simp only [memEvents] at hx; (repeat' split at hx) <;> simp_all
    · rw [if_neg (by omega)]
    · split
      · rename_i e; rw [e]; exact f1
      · rfl
    · obtain ⟨q1, q2⟩ := h.quiet g hg
      refine ⟨?_, fun j hj => ?_⟩
      · split
        · rename_i e; subst e
          rcases f3 with f3 | f3 | ⟨p, f3, f4⟩
          · rw [f3]; exact q1
          · exact f3
          · have := (q2 g hk).1
            rw [swp_self, f3] at this
            cases this; exact absurd rfl f4
        · exact q1
      · split
        · rename_i e; subst e
          obtain ⟨w1, w2⟩ := q2 j hj
          constructor
          · rcases c_queue hcs with hq | ⟨ql, hq, hcase⟩
            · rw [hq]; exact w1
            · refine q_idle hq w1 fun op e => ?_
              rcases hcase with ⟨t, i, e1, e2⟩ | ⟨t, e1, e2⟩ | ⟨e1, e2⟩ | ⟨e1, e2⟩
              · rw [e2] at e; cases e
                have := hcall _ (.inl ⟨i, e1⟩)
                rw [swp_swp, hg] at this; cases this
              · rw [e2] at e; cases e
                have := hcall _ (.inr e1)
                rw [swp_swp, hg] at this; cases this
              · rw [e2] at e
                have e3 : swp j g = 0 := by injection e with e5 e6; exact e5.symm
                have e4 : g = j := by have := congrArg (swp j) e3; rw [swp_swp, swp_zero] at this; exact this
                subst e4; subst e1
                have := hlive _ (List.mem_singleton.mpr rfl)
                rw [hg] at this; cases this
              · exact e2 _ _ e
          · rcases f2 with f2 | ⟨d, e1, -, -, f2⟩ | ⟨d, e1, -⟩
            · rw [f2]; exact w2
            · rw [f2]
              intro e
              have e3 : d = swp j g := by injection e
              have := hcall d (.inr e1)
              rw [e3, swp_swp, hg] at this; cases this
            · exact absurd e1 hl2
        · exact q2 j hj
    · split
      · rename_i e; subst e
        rcases f2 with f2 | ⟨d, -, -, f2, f3⟩ | ⟨d, e1, -⟩
        · rw [f2]
        · rw [f2, f3]; simp
        · exact absurd e1 hl2
      · rfl
    · split at hd
      · rename_i e; subst e
        rcases f2 with f2 | ⟨d', e1, e2, -, f3⟩ | ⟨d', e1, -⟩
        · rw [f2] at hd; exact .inl hd
        · rw [f3] at hd; cases hd
          subst e1
          exact .inr ⟨e2, by simp [memEvents]⟩
        · exact absurd e1 hl2
      · exact .inl hd

theorem VThr_start (n m : Nat) : VThr n (.start m) := by
  refine ⟨fun _ _ => ⟨rfl, rfl⟩, fun k hk => ?_, fun k hk => ?_, fun k hk => ?_, fun k d hd => ?_, fun a g k h => ?_, fun a g k h => ?_, fun a g k h => ?_⟩
  · cases hk
  · cases hk
  · cases hk
  · cases hd
  all_goals simp [VState.start] at h

theorem vRun_thr {n m : Nat} {ls : List VLabel} {s : VState} (h : vRun n (.start m) ls = some s) : VThr n s := by
  induction ls using List.reverseRecOn generalizing s with
  | nil => simp only [vRun, Option.some.injEq] at h; subst h; exact VThr_start n m
  | append_singleton ls l ih =>
    rw [vRun_snoc] at h
    cases hr : vRun n (.start m) ls with
    | none => rw [hr] at h; cases h
    | some s1 => rw [hr, Option.bind_some] at h; exact vStep_thr (ih hr) h

/-- Where the events of tasks come from. -/
structure VEv (s : VState) : Prop where
  work : ∀ (b g k i : Nat), s.tr[b]? = some (g, .work k i) → g = k ∧ ∃ a h : Nat, s.tr[a]? = some (h, .send k i) ∧ HB s.tr a b
  set : ∀ (b g k i : Nat), s.tr[b]? = some (g, .set k i) → g = k ∧ ∃ a h : Nat, s.tr[a]? = some (h, .send k i) ∧ HB s.tr a b
  ran : ∀ k i, i ∈ (s.act k).ran → ∃ c : Nat, s.tr[c]? = some (k, .set k i)
  got : ∀ (b g k i : Nat), s.tr[b]? = some (g, .got k i) → ∃ c : Nat, s.tr[c]? = some (k, .set k i) ∧ HB s.tr c b

theorem VEv_ext {s : VState} (h : VEv s) (e : VTr) (act' : Nat → CState)
    (hw : ∀ (b g k i : Nat), (s.tr ++ e)[b]? = some (g, .work k i) → s.tr.length ≤ b → g = k ∧ ∃ a h : Nat, (s.tr ++ e)[a]? = some (h, .send k i) ∧ HB (s.tr ++ e) a b)
    (hset : ∀ (b g k i : Nat), (s.tr ++ e)[b]? = some (g, .set k i) → s.tr.length ≤ b → g = k ∧ ∃ a h : Nat, (s.tr ++ e)[a]? = some (h, .send k i) ∧ HB (s.tr ++ e) a b)
    (hran : ∀ k i, i ∈ (act' k).ran → i ∈ (s.act k).ran ∨ (k, MemEv.set k i) ∈ e)
    (hgot : ∀ (b g k i : Nat), (s.tr ++ e)[b]? = some (g, .got k i) → s.tr.length ≤ b → ∃ c : Nat, (s.tr ++ e)[c]? = some (k, .set k i) ∧ HB (s.tr ++ e) c b) :
    VEv { act := act', tr := s.tr ++ e } := by
  refine ⟨fun b g k i hb => ?_, fun b g k i hb => ?_, fun k i hi => ?_, fun b g k i hb => ?_⟩
  · rcases Nat.lt_or_ge b s.tr.length with hlt | hge
    · rw [List.getElem?_append_left hlt] at hb
      obtain ⟨g1, a, h', g2, g3⟩ := h.work b g k i hb
      exact ⟨g1, a, h', get_ext e g2, HB_ext e g3⟩
    · exact hw b g k i hb hge
  · rcases Nat.lt_or_ge b s.tr.length with hlt | hge
    · rw [List.getElem?_append_left hlt] at hb
      obtain ⟨g1, a, h', g2, g3⟩ := h.set b g k i hb
      exact ⟨g1, a, h', get_ext e g2, HB_ext e g3⟩
    · exact hset b g k i hb hge
  · rcases hran k i hi with hi | hi
    · obtain ⟨c, g1⟩ := h.ran k i hi
      exact ⟨c, get_ext e g1⟩
    · obtain ⟨c, g1⟩ := List.mem_iff_getElem?.mp hi
      exact ⟨s.tr.length + c, by rw [List.getElem?_append_right (by omega)]; simpa using g1⟩
  · rcases Nat.lt_or_ge b s.tr.length with hlt | hge
    · rw [List.getElem?_append_left hlt] at hb
      obtain ⟨c, g2, g3⟩ := h.got b g k i hb
      exact ⟨c, get_ext e g2, HB_ext e g3⟩
    · exact hgot b g k i hb hge

theorem new_mem {tr e : VTr} {b : Nat} {x : Nat × MemEv} (h : (tr ++ e)[b]? = some x) (hb : tr.length ≤ b) : x ∈ e := by
  rw [List.getElem?_append_right hb] at h
  exact List.mem_of_getElem? h

theorem run_sent {s : VState} (hq : ∀ k, VObj s.tr k (s.act k)) {k i : Nat} (hr : (s.act k).running = some (.user i)) (x : MemEv) :
    ∃ a h : Nat, (s.tr ++ [(k, x)])[a]? = some (h, .send k i) ∧ HB (s.tr ++ [(k, x)]) a s.tr.length := by
  obtain ⟨a, g, h1, h2⟩ := (hq k).run i hr
  exact ⟨a, g, get_ext _ h1, Knows_next x h2⟩

theorem task_events (k : Nat) (c : CState) (l : CLabel) : ∀ x ∈ memEvents k c l, (∀ k' i, x.2 ≠ .work k' i) ∧ (∀ k' i, x.2 ≠ .got k' i) ∧
    (∀ k' i, x.2 = .set k' i → k' = k ∧ x.1 = k ∧ l = .finish ∧ c.running = some (.user i)) := by
  intro x hx
  cases l with
  | mem l =>
    cases l <;> simp only [memEvents] at hx <;> (repeat' split at hx) <;> simp only [List.mem_singleton, List.mem_cons, List.not_mem_nil, or_false] at hx
    all_goals first | (subst hx; simp; done) | (rcases hx with rfl | rfl <;> simp)
  | finish =>
    simp only [memEvents] at hx
    split at hx <;> simp only [List.mem_singleton, List.not_mem_nil] at hx <;> subst hx <;> simp_all
  | _ =>
    simp only [memEvents] at hx
    (repeat' split at hx) <;> simp only [List.mem_singleton, List.mem_cons, List.not_mem_nil, or_false] at hx
    all_goals first | (subst hx; simp; done) | (rcases hx with rfl | rfl <;> simp)

theorem ran_events {c c' : CState} {l : CLabel} (hcs : cStep c l = some c') (hl : l ≠ .finish) : c'.ran = c.ran := by
  cases l with
  | finish => exact absurd rfl hl
  | mem l =>
    have hl : ∀ t op, l ≠ .call t op := by rintro t op rfl; simp [cStep] at hcs
    have hs' : (if c.dtor = .joined then none else (qStep c.qs l).map fun q => { c with qs := q, running := handedOver c l }) = some c' := by
      cases l <;> first | exact hcs | exact absurd rfl (hl _ _)
    split at hs'
    · cases hs'
    · simp only [Option.map_eq_some_iff] at hs'; obtain ⟨q, -, rfl⟩ := hs'; rfl
  | _ =>
    simp only [cStep] at hcs
    (repeat' split at hcs) <;>
      first
        | cases hcs; done
        | (simp only [Option.some.injEq] at hcs; subst hcs; rfl)
        | (simp only [Option.map_eq_some_iff] at hcs; obtain ⟨q, -, rfl⟩ := hcs; rfl)

theorem vStep_ev {n : Nat} {s s' : VState} {l : VLabel} (hq : ∀ k, VObj s.tr k (s.act k)) (h : VEv s) (hs : vStep n s l = some s') : VEv s' := by
  have single : ∀ {x : Nat × MemEv} {b : Nat} {y}, (s.tr ++ [x])[b]? = some y → s.tr.length ≤ b → b = s.tr.length ∧ y = x := by
    intro x b y hb hge
    rcases get_app1 hb with hb | hb
    · have := (List.getElem?_eq_some_iff.mp hb).1; omega
    · exact hb
  cases l with
  | work k =>
    simp only [vStep] at hs
    split at hs
    case h_2 => cases hs
    rename_i i hr
    split at hs
    case isFalse => cases hs
    simp only [Option.some.injEq] at hs; subst hs
    refine VEv_ext h _ s.act (fun b g k' i' hb hge => ?_) (fun b g k' i' hb hge => ?_) (fun k i hi => .inl hi) (fun b g k' i' hb hge => ?_)
    · obtain ⟨rfl, e⟩ := single hb hge
      cases e
      exact ⟨rfl, run_sent hq hr _⟩
    · cases (single hb hge).2
    · cases (single hb hge).2
  | get g k i =>
    simp only [vStep] at hs
    split at hs
    case isFalse => cases hs
    rename_i hc
    simp only [Option.some.injEq] at hs; subst hs
    refine VEv_ext h _ s.act (fun b g k' i' hb hge => ?_) (fun b g k' i' hb hge => ?_) (fun k i hi => .inl hi) (fun b g k' i' hb hge => ?_)
    · cases (single hb hge).2
    · cases (single hb hge).2
    · obtain ⟨rfl, e⟩ := single hb hge
      cases e
      obtain ⟨c, g1⟩ := h.ran k i hc.2.1
      exact ⟨c, get_ext _ g1, .edge (.future (List.getElem?_eq_some_iff.mp g1).1 (get_ext _ g1) (get_last _ _))⟩
  | stop g =>
    simp only [vStep] at hs
    split at hs
    case isFalse => cases hs
    simp only [Option.some.injEq] at hs; subst hs
    refine VEv_ext h _ _ (fun b g k' i' hb hge => ?_) (fun b g k' i' hb hge => ?_) (fun k i hi => .inl ?_) (fun b g k' i' hb hge => ?_)
    · cases (single hb hge).2
    · cases (single hb hge).2
    · split at hi
      · rename_i e; rw [e]; exact hi
      · exact hi
    · cases (single hb hge).2
  | wait d g =>
    simp only [vStep] at hs
    split at hs
    case isFalse => cases hs
    simp only [Option.some.injEq] at hs; subst hs
    refine VEv_ext h _ s.act (fun b g k' i' hb hge => ?_) (fun b g k' i' hb hge => ?_) (fun k i hi => .inl hi) (fun b g k' i' hb hge => ?_)
    · cases (single hb hge).2
    · cases (single hb hge).2
    · cases (single hb hge).2
  | act k l =>
    simp only [vStep] at hs
    split at hs
    case isFalse => cases hs
    cases hcs : cStep (s.act k) l with
    | none => rw [hcs] at hs; cases hs
    | some c' =>
    rw [hcs] at hs; simp only [Option.map_some, Option.some.injEq] at hs; subst hs
    have hev := task_events k (s.act k) l
    refine VEv_ext h _ _ (fun b g k' i' hb hge => ?_) (fun b g k' i' hb hge => ?_) (fun j i hi => ?_) (fun b g k' i' hb hge => ?_)
    · exact absurd rfl ((hev _ (new_mem hb hge)).1 k' i')
    · obtain ⟨e1, e2, e3, e4⟩ := (hev _ (new_mem hb hge)).2.2 k' i' rfl
      subst e1 e3
      simp only at e2; subst e2
      refine ⟨rfl, ?_⟩
      have e5 : memEvents g (s.act g) .finish = [(g, .set g i')] := by simp only [memEvents, e4]
      rw [e5] at hb ⊢
      obtain ⟨rfl, -⟩ := single hb hge
      exact run_sent hq e4 _
    · split at hi
      · rename_i e; subst e
        cases l with
        | finish =>
          simp only [cStep] at hcs
          split at hcs
          case h_2 => cases hcs
          split at hcs
          · rename_i i0 hr
            simp only [Option.some.injEq] at hcs; subst hcs
            rcases List.mem_append.mp hi with hi | hi
            · exact .inl hi
            · rw [List.mem_singleton] at hi; subst hi
              exact .inr (by simp [memEvents, hr])
          · simp only [Option.some.injEq] at hcs; subst hcs; exact .inl hi
          · cases hcs
        | _ => rw [ran_events hcs (by simp)] at hi; exact .inl hi
      · exact .inl hi
    · exact absurd rfl ((hev _ (new_mem hb hge)).2.1 k' i')

theorem vRun_ev {n m : Nat} {ls : List VLabel} {s : VState} (h : vRun n (.start m) ls = some s) : VEv s := by
  induction ls using List.reverseRecOn generalizing s with
  | nil =>
    simp only [vRun, Option.some.injEq] at h; subst h
    refine ⟨?_, ?_, ?_, ?_⟩ <;> simp [VState.start, CState.start]
  | append_singleton ls l ih =>
    rw [vRun_snoc] at h
    cases hr : vRun n (.start m) ls with
    | none => rw [hr] at h; cases h
    | some s1 => rw [hr, Option.bind_some] at h; exact vStep_ev (vRun_objs hr) (ih hr) h

/-- A task runs in the thread of its object, and after it has been sent: the event at which it was sent, and whatever the sender did before,
happen before everything that the task does. -/
theorem C88_callback {n m : Nat} {ls : List VLabel} {s : VState} (h : vRun n (.start m) ls = some s) {b g k i : Nat}
    (hb : s.tr[b]? = some (g, .work k i)) :
    g = k ∧ ∃ a t : Nat, s.tr[a]? = some (t, .send k i) ∧ HB s.tr a b ∧ ∀ (a' : Nat) e, s.tr[a']? = some (t, e) → a' < a → HB s.tr a' b := by
  obtain ⟨h1, a, t, h2, h3⟩ := (vRun_ev h).work b g k i hb
  exact ⟨h1, a, t, h2, h3, fun a' e ha hlt => .trans (.edge (.po hlt ha h2)) h3⟩

/-- The same from the point of view of the sender, for a task that is sent once. -/
theorem C88_sender {n m : Nat} {ls : List VLabel} {s : VState} (h : vRun n (.start m) ls = some s) {a b t g k i : Nat}
    (ha : s.tr[a]? = some (t, .send k i)) (honce : ∀ (a' t' : Nat), s.tr[a']? = some (t', .send k i) → a' = a)
    (hb : s.tr[b]? = some (g, .work k i)) : ∀ (a' : Nat) e, s.tr[a']? = some (t, e) → a' ≤ a → HB s.tr a' b := by
  obtain ⟨-, a0, t0, h2, h3, h4⟩ := C88_callback h hb
  have e := honce a0 t0 h2; subst e
  rw [ha] at h2; cases h2
  intro a' e ha' hle
  rcases Nat.lt_or_eq_of_le hle with hlt | rfl
  · exact h4 a' e ha' hlt
  · exact h3

/-- From the logging thread through the thread of the worker to that of the sink: what a thread did before it sent task `i` to object `k` happens
before what is done by a task `j` that task `i` sends to object `k'`. -/
theorem C88_chain {n m : Nat} {ls : List VLabel} {s : VState} (h : vRun n (.start m) ls = some s) {a b c d t g k k' i j : Nat}
    (ha : s.tr[a]? = some (t, .send k i)) (honce : ∀ (a' t' : Nat), s.tr[a']? = some (t', .send k i) → a' = a)
    (hc : s.tr[c]? = some (k, .work k i)) (hcd : c < d)
    (hd : s.tr[d]? = some (k, .send k' j)) (honce' : ∀ (a' t' : Nat), s.tr[a']? = some (t', .send k' j) → a' = d)
    (hb : s.tr[b]? = some (g, .work k' j)) : ∀ (a' : Nat) e, s.tr[a']? = some (t, e) → a' ≤ a → HB s.tr a' b := by
  intro a' e ha' hle
  exact .trans (C88_sender h ha honce hc a' e ha' hle) (C88_sender h hd honce' hb c _ hc (Nat.le_of_lt hcd))

/-- When `get` on the future of a call returns, everything that the thread of the object did up to the end of the call is visible, and everything that
the thread that made the call did before. -/
theorem C88_future {n m : Nat} {ls : List VLabel} {s : VState} (h : vRun n (.start m) ls = some s) {b g k i : Nat}
    (hb : s.tr[b]? = some (g, .got k i)) :
    ∃ c : Nat, s.tr[c]? = some (k, .set k i) ∧ (∀ (a : Nat) e, s.tr[a]? = some (k, e) → a ≤ c → HB s.tr a b) ∧
      ∃ a t : Nat, s.tr[a]? = some (t, .send k i) ∧ ∀ (a' : Nat) e, s.tr[a']? = some (t, e) → a' ≤ a → HB s.tr a' b := by
  obtain ⟨c, h1, h2⟩ := (vRun_ev h).got b g k i hb
  obtain ⟨-, a, t, h3, h4⟩ := (vRun_ev h).set c k k i h1
  refine ⟨c, h1, fun a e ha hle => ?_, a, t, h3, fun a' e ha hle => ?_⟩
  · rcases Nat.lt_or_eq_of_le hle with hlt | rfl
    · exact .trans (.edge (.po hlt ha h1)) h2
    · exact h2
  · rcases Nat.lt_or_eq_of_le hle with hlt | rfl
    · exact .trans (.edge (.po hlt ha h3)) (.trans h4 h2)
    · exact .trans h4 h2

/-- When the destructor has joined the thread of the object, everything that this thread ever did is visible to the thread that called the destructor,
and the destructor was called by this thread. -/
theorem C88_destructor {n m : Nat} {ls : List VLabel} {s : VState} (h : vRun n (.start m) ls = some s) {b d k : Nat}
    (hb : s.tr[b]? = some (d, .destroy k)) :
    (∀ (a : Nat) e, s.tr[a]? = some (k, e) → HB s.tr a b) ∧ ∃ c : Nat, c < b ∧ s.tr[c]? = some (d, .dtor k) := by
  obtain ⟨-, -, h1, h2⟩ := (vRun_thr h).destroy b d k hb
  exact ⟨h1, h2⟩

/-- Two accesses to the memory of a queue or to the flag that ends the loop are always ordered. -/
theorem C89_running {n m : Nat} {ls : List VLabel} {s : VState} (h : vRun n (.start m) ls = some s) {a b g g' k : Nat} {x : MemLoc}
    (hab : a < b) (ha : s.tr[a]? = some (g, .access k x)) (hb : s.tr[b]? = some (g', .access k x)) : HB s.tr a b := by
  cases x with
  | queue => exact ((vRun_objs h) k).q.ord a b g g' hab ha hb
  | flag =>
    have e1 := (vRun_thr h).flag a g k ha
    have e2 := (vRun_thr h).flag b g' k hb
    rw [e1] at ha; rw [e2] at hb
    exact .edge (.po hab ha hb)

/-- No data race, if every use of an object by other threads happens before the call of its destructor. -/
theorem C89_race_free {n m : Nat} {ls : List VLabel} {s : VState} (h : vRun n (.start m) ls = some s) (hd : ∀ k, DestroyedLast s.tr k) :
    RaceFree s.tr := by
  intro i j g g' e e' hij hi hj hc
  rcases hc with ⟨k, x, rfl, rfl⟩ | ⟨k, rfl, ht⟩ | ⟨k, ht, rfl⟩
  · exact C89_running h hij hi hj
  · have := ((vRun_thr h).destroy i g k hi).2.1 j g' e' hj ht
    omega
  · obtain ⟨-, -, h1, c, h2, h3⟩ := (vRun_thr h).destroy j g' k hj
    by_cases e1 : g = k
    · subst e1; exact h1 i e hi
    by_cases e2 : g = g'
    · subst e2; exact .edge (.po hij hi hj)
    · exact .trans (hd k i c g g' e hi ht h3 e1 e2) (.edge (.po h2 h3 hj))

/-- In particular there is none if the thread that calls a destructor has joined every other thread that used the object. -/
theorem C89_joined {n m : Nat} {ls : List VLabel} {s : VState} (h : vRun n (.start m) ls = some s)
    (hd : ∀ (k j d : Nat), s.tr[j]? = some (d, .dtor k) → ∀ (i g : Nat) e, s.tr[i]? = some (g, e) → Touches k e → g ≠ k → g ≠ d →
      ∃ c : Nat, c < j ∧ s.tr[c]? = some (d, .joined g)) : RaceFree s.tr := by
  refine C89_race_free h fun k i j g d e hi ht hj h1 h2 => ?_
  obtain ⟨c, h3, h4⟩ := hd k j d hj i g e hi ht h1 h2
  exact .trans (((vRun_thr h).join c d g h4).2 i e hi) (.edge (.po h3 h4 hj))

theorem swp_threadOf (k t : Nat) : swp k t = threadOf k t := by unfold swp threadOf; grind

/-- A step that changes nothing in object `k`, with events of other objects. -/
theorem Recorded_none {k : Nat} {c : CState} {e : VTr} (h : ∀ x ∈ e, ¬ Touches k x.2 ∧ x ≠ (k, .ended) ∧ x.2 ≠ .joined k ∧ x.2 ≠ .dtor k ∧
      (∀ i, x.2 ≠ .send k i) ∧ (∀ i, x.2 ≠ .set k i) ∧ (∀ i, x.2 = .work k i → x.1 = k ∧ c.running = some (.user i)) ∧
      (∀ i, x.2 = .got k i → i ∈ c.ran)) : Recorded k c c e := by
  refine ⟨fun g => ⟨fun hg => absurd rfl (h _ hg).1, ?_⟩, fun g => ⟨fun hg => absurd rfl (h _ hg).1, ?_⟩, fun g => ⟨fun hg => absurd rfl (h _ hg).1, ?_⟩,
    fun g => ⟨fun hg => absurd rfl (h _ hg).1, ?_⟩, fun hne => absurd rfl hne, fun g => ⟨fun hg => absurd rfl (h _ hg).1, ?_⟩, fun hne => absurd rfl hne,
    ⟨fun hg => absurd rfl (h _ hg).2.1, ?_⟩, fun g => ⟨fun hg => absurd rfl (h _ hg).2.2.1, ?_⟩, fun g => ⟨fun hg => absurd rfl (h _ hg).1, ?_⟩,
    fun g => ⟨fun hg => absurd rfl (h _ hg).2.2.2.1, ?_⟩, fun g i => ⟨fun hg => absurd rfl ((h _ hg).2.2.2.2.1 i), ?_⟩,
    fun g i => ⟨fun hg => absurd rfl ((h _ hg).2.2.2.2.2.1 i), ?_⟩, fun g i hg => ?_, fun g i hg => ?_⟩
  · rintro ⟨t, -, h1, h2⟩; rw [h1] at h2; cases h2
  · rintro ⟨t, -, h1, h2⟩; rw [h1] at h2; cases h2
  · rintro ⟨t, -, h1, h2⟩; rw [h1] at h2; cases h2
  · rintro ⟨t, op, -, h1, h2⟩; exact absurd h1 (h2 op)
  · rintro ⟨-, ⟨h1, h2⟩ | ⟨h1, h2⟩ | ⟨h1, h2⟩⟩ <;> (rw [h1] at h2; cases h2)
  · rintro ⟨h1, h2⟩; rw [h1] at h2; cases h2
  · rintro ⟨t, -, -, h1, h2⟩; rw [h1] at h2; cases h2
  · rintro ⟨t, -, h1, h2⟩; rw [h1] at h2; cases h2
  · rintro ⟨t, -, h1, h2⟩; rw [h1] at h2; cases h2
  · rintro ⟨t, -, h1, h2⟩; rw [h1] at h2; cases h2
  · rintro ⟨-, h1, h2⟩; rw [h1] at h2; cases h2
  · obtain ⟨h1, h2⟩ := (h _ hg).2.2.2.2.2.2.1 i rfl; exact ⟨h1, h2, h2⟩
  · exact (h _ hg).2.2.2.2.2.2.2 i rfl

/-- A step of object `k` has events of object `k` only. -/
theorem act_events (k : Nat) (c : CState) (l : CLabel) : ∀ x ∈ memEvents k c l, ∀ j, (Touches j x.2 → j = k) ∧ (x = (j, .ended) → k = j) ∧
    (x.2 = .joined j → j = k) ∧ (x.2 = .dtor j → j = k) ∧ (∀ i, x.2 = .send j i → j = k) ∧ (∀ i, x.2 = .set j i → j = k) ∧
    (∀ i, x.2 ≠ .work j i) ∧ (∀ i, x.2 ≠ .got j i) := by
  intro x hx j
  cases l with
  | mem l =>
    cases l <;> simp only [memEvents] at hx <;> (repeat' split at hx) <;> simp only [List.mem_singleton, List.mem_cons, List.not_mem_nil, or_false] at hx
    all_goals first | (subst hx; simp [Touches, eq_comm]; done) | (rcases hx with rfl | rfl <;> simp [Touches, eq_comm])
  | _ =>
    simp only [memEvents] at hx
    (repeat' split at hx) <;> simp only [List.mem_singleton, List.mem_cons, List.not_mem_nil, or_false] at hx
    all_goals first | (subst hx; simp [Touches, eq_comm]; done) | (rcases hx with rfl | rfl <;> simp [Touches, eq_comm])

theorem Recorded_step {tr : VTr} {k : Nat} {c c' : CState} {l : CLabel} (h : VObj tr k c) (hs : cStep c l = some c') :
    Recorded k c c' (memEvents k c l) := by
  have o1 := h.q.own1
  have o2 := h.q.own2
  cases l with
  | send t i =>
    simp only [cStep, qStep] at hs
    split at hs
    · cases hs
    split at hs
    case h_2 => cases hs
    rename_i hpc
    simp only [Option.map_some, Option.some.injEq] at hs; subst hs
    simp only [memEvents, swp_threadOf]
    constructor <;> simp only [List.mem_singleton, List.getElem?_set] <;> grind
  | dtorSend d =>
    simp only [cStep, qStep] at hs
    split at hs
    case isFalse => cases hs
    split at hs
    case h_2 => cases hs
    rename_i hpc
    simp only [Option.map_some, Option.some.injEq] at hs; subst hs
    simp only [memEvents, swp_threadOf]
    constructor <;> simp only [List.mem_cons, List.not_mem_nil, or_false, List.getElem?_set] <;> grind
  | mem l =>
    cases l with
    | call t op => simp [cStep] at hs
    | lock t =>
      simp only [cStep, qStep] at hs
      split at hs
      · cases hs
      split at hs
      · cases hs
      rename_i hown
      split at hs
      case h_3 => cases hs
      all_goals
        rename_i hpc
        simp only [Option.map_some, Option.some.injEq] at hs; subst hs
        simp only [memEvents, swp_threadOf, handedOver]
        constructor <;> simp only [List.mem_cons, List.not_mem_nil, or_false, List.getElem?_set] <;> grind
    | act t =>
      simp only [cStep, qStep] at hs
      split at hs
      · cases hs
      split at hs
      case h_2 => cases hs
      rename_i op hpc
      have hown := o1 t op hpc
      cases hcr : critical c.qs.q op with
      | none =>
        rw [hcr] at hs
        simp only [Option.map_some, Option.some.injEq] at hs; subst hs
        simp only [memEvents, swp_threadOf, handedOver, hpc, hcr]
        constructor <;> simp only [List.mem_cons, List.not_mem_nil, or_false, List.getElem?_set] <;> grind
      | some r =>
        rw [hcr] at hs
        simp only [Option.map_some, Option.some.injEq] at hs; subst hs
        simp only [memEvents, swp_threadOf, handedOver, hpc, hcr]
        constructor <;> simp only [List.mem_cons, List.not_mem_nil, or_false, List.getElem?_set] <;> grind
    | unlock t =>
      simp only [cStep] at hs
      split at hs
      · cases hs
      simp only [Option.map_eq_some_iff] at hs
      obtain ⟨q', hq, rfl⟩ := hs
      have hrun : handedOver c (.unlock t) = c.running ∨ ∃ x, handedOver c (.unlock t) = some x := by
        unfold handedOver
        split
        · split
          · exact .inr ⟨_, rfl⟩
          · exact .inl rfl
        · exact .inl rfl
      simp only [qStep] at hq
      split at hq
      case h_3 => cases hq
      all_goals
        rename_i hpc
        have hown := o2 _ _ _ hpc
        simp only [Option.some.injEq] at hq; subst hq
        simp only [memEvents, swp_threadOf]
        constructor <;> simp only [List.mem_cons, List.not_mem_nil, or_false, List.getElem?_set] <;> grind
    | notify t u =>
      simp only [cStep, qStep] at hs
      split at hs
      · cases hs
      split at hs
      case h_2 => cases hs
      rename_i hpc
      cases u with
      | none =>
        simp only at hs
        split at hs
        · cases hs
        simp only [Option.map_some, Option.some.injEq] at hs; subst hs
        simp only [memEvents, swp_threadOf, handedOver]
        constructor <;> simp only [List.mem_cons, List.not_mem_nil, or_false, List.getElem?_set] <;> grind
      | some u =>
        simp only at hs
        split at hs
        case h_2 => cases hs
        rename_i hpu
        simp only [Option.map_some, Option.some.injEq] at hs; subst hs
        simp only [memEvents, swp_threadOf, handedOver]
        constructor <;> simp only [List.mem_cons, List.not_mem_nil, or_false, List.getElem?_set] <;> grind
    | spurious t =>
      simp only [cStep, qStep] at hs
      split at hs
      · cases hs
      split at hs
      case h_2 => cases hs
      rename_i hpc
      simp only [Option.map_some, Option.some.injEq] at hs; subst hs
      simp only [memEvents, handedOver]
      constructor <;> simp only [List.mem_cons, List.not_mem_nil, or_false, List.getElem?_set] <;> grind
  | enter =>
    simp only [cStep, qStep] at hs
    split at hs
    case isFalse => cases hs
    split at hs
    case h_2 => cases hs
    rename_i hpc
    simp only [Option.map_some, Option.some.injEq] at hs; subst hs
    simp only [memEvents]
    constructor <;> simp only [List.mem_cons, List.not_mem_nil, or_false, List.getElem?_set] <;> grind
  | finish =>
    simp only [cStep] at hs
    split at hs
    case h_2 => cases hs
    rename_i hpc
    split at hs
    case h_3 => cases hs
    all_goals
      rename_i hr
      simp only [Option.some.injEq] at hs; subst hs
      simp only [memEvents, hr]
      constructor <;> simp only [List.mem_cons, List.not_mem_nil, or_false, List.getElem?_set] <;> grind
  | leave =>
    simp only [cStep] at hs
    split at hs
    case h_2 => cases hs
    split at hs
    case isFalse => cases hs
    simp only [Option.some.injEq] at hs; subst hs
    simp only [memEvents]
    constructor <;> simp only [List.mem_cons, List.not_mem_nil, or_false, List.getElem?_set] <;> grind
  | join =>
    simp only [cStep] at hs
    split at hs
    case h_2 => cases hs
    rename_i d hd
    split at hs
    case h_2 => cases hs
    split at hs
    case isFalse => cases hs
    simp only [Option.some.injEq] at hs; subst hs
    simp only [memEvents, hd, swp_threadOf]
    constructor <;> simp only [List.mem_cons, List.not_mem_nil, or_false, List.getElem?_set] <;> grind

/-- C89: the events are what happens: every step is recorded, object by object, by the events that it adds; a thread that belongs to no object adds
`ended` when it ends, and is joined after that. -/
theorem C89_events {n m : Nat} {ls : List VLabel} {s s' : VState} {l : VLabel} (h : vRun n (.start m) ls = some s) (hs : vStep n s l = some s') :
    ∃ e, s'.tr = s.tr ++ e ∧ (∀ k < n, Recorded k (s.act k) (s'.act k) e) ∧
      (∀ g, n ≤ g → ((g, .ended) ∈ e ↔ (s.act g).exited = false ∧ (s'.act g).exited = true)) ∧
      (∀ d g, n ≤ g → (d, .joined g) ∈ e → (s.act g).exited = true) := by
  have ho := vRun_objs h
  have ht := vRun_thr h
  have none : ∀ {x : Nat × MemEv}, s'.act = s.act → s'.tr = s.tr ++ [x] →
      (∀ k < n, ¬ Touches k x.2 ∧ x ≠ (k, .ended) ∧ x.2 ≠ .joined k ∧ x.2 ≠ .dtor k ∧
      (∀ i, x.2 ≠ .send k i) ∧ (∀ i, x.2 ≠ .set k i) ∧ (∀ i, x.2 = .work k i → x.1 = k ∧ (s.act k).running = some (.user i)) ∧
      (∀ i, x.2 = .got k i → i ∈ (s.act k).ran)) → (∀ g, x ≠ (g, .ended)) → (∀ d g, n ≤ g → x = (d, .joined g) → (s.act g).exited = true) →
      ∃ e, s'.tr = s.tr ++ e ∧ (∀ k < n, Recorded k (s.act k) (s'.act k) e) ∧
      (∀ g, n ≤ g → ((g, .ended) ∈ e ↔ (s.act g).exited = false ∧ (s'.act g).exited = true)) ∧
      (∀ d g, n ≤ g → (d, .joined g) ∈ e → (s.act g).exited = true) := by
    intro x hact htr h1 h2 h3
    refine ⟨_, htr, fun k hk => ?_, fun g hg => ⟨fun hm => ?_, fun hm => ?_⟩, fun d g hg hm => ?_⟩
    · rw [hact]; exact Recorded_none fun y hy => by rw [List.mem_singleton] at hy; subst hy; exact h1 k hk
    · rw [List.mem_singleton] at hm; exact absurd hm.symm (h2 g)
    · rw [hact, hm.1] at hm; cases hm.2
    · rw [List.mem_singleton] at hm; exact h3 d g hg hm.symm
  cases l with
  | work k =>
    simp only [vStep] at hs
    split at hs
    case h_2 => cases hs
    rename_i i hr
    split at hs
    case isFalse => cases hs
    simp only [Option.some.injEq] at hs; subst hs
    exact none rfl rfl (fun j hj => by simp [Touches]; grind) (by simp) (by simp)
  | get g k i =>
    simp only [vStep] at hs
    split at hs
    case isFalse => cases hs
    rename_i hc
    simp only [Option.some.injEq] at hs; subst hs
    exact none rfl rfl (fun j hj => by simp [Touches]; grind) (by simp) (by simp)
  | wait d g =>
    simp only [vStep] at hs
    split at hs
    case isFalse => cases hs
    rename_i hc
    simp only [Option.some.injEq] at hs; subst hs
    exact none rfl rfl (fun j hj => by simp [Touches]; omega) (by simp) (fun d' g' hg' e => by cases e; exact hc.2.1)
  | stop g =>
    simp only [vStep] at hs
    split at hs
    case isFalse => cases hs
    rename_i hc
    simp only [Option.some.injEq] at hs; subst hs
    refine ⟨_, rfl, fun k hk => ?_, fun g' hg => ⟨fun hm => ?_, fun hm => ?_⟩, fun d g hg hm => ?_⟩
    · simp only [if_neg (show k ≠ g by omega)]
      exact Recorded_none fun y hy => by rw [List.mem_singleton] at hy; subst hy; simp [Touches]; omega
    · simp only [List.mem_singleton, Prod.mk.injEq, and_true] at hm; subst hm
      simp only [if_true, and_true]; exact may_live ht hc.2
    · by_cases e : g' = g
      · simp [e]
      · simp only [if_neg e, hm.1] at hm; cases hm.2
    · simp at hm
  | act k l =>
    simp only [vStep] at hs
    split at hs
    case isFalse => cases hs
    rename_i hc
    obtain ⟨hk, hc⟩ := hc
    cases hcs : cStep (s.act k) l with
    | none => rw [hcs] at hs; cases hs
    | some c' =>
    rw [hcs] at hs; simp only [Option.map_some, Option.some.injEq] at hs; subst hs
    have hother := act_events k (s.act k) l
    refine ⟨_, rfl, fun j hj => ?_, fun g hg => ⟨fun hm => ?_, fun hm => ?_⟩, fun d g hg hm => ?_⟩
    · by_cases e : j = k
      · subst e; simp only [if_true]; exact Recorded_step (ho j) hcs
      · simp only [if_neg e]
        refine Recorded_none fun x hx => ?_
        have := hother x hx j
        refine ⟨fun hm => e (this.1 hm), fun hm => e (this.2.1 hm).symm, fun hm => e (this.2.2.1 hm), fun hm => e (this.2.2.2.1 hm), fun i hm => e (this.2.2.2.2.1 i hm),
          fun i hm => e (this.2.2.2.2.2.1 i hm), fun i hm => absurd hm (this.2.2.2.2.2.2.1 i), fun i hm => absurd hm (this.2.2.2.2.2.2.2 i)⟩
    · have := (hother _ hm g).2.1 rfl
      omega
    · simp only [if_neg (show g ≠ k by omega), hm.1] at hm; cases hm.2
    · have := (hother _ hm g).2.2.1 rfl
      omega

theorem HB_none {tr : VTr} {a b g : Nat} {e : MemEv} (ha : tr[a]? = some (g, e)) (h1 : ∀ k, e ≠ .unlock k) (h2 : e ≠ .ended)
    (h3 : ∀ k i, e ≠ .set k i) (h4 : ∀ (c : Nat) e', tr[c]? = some (g, e') → c ≤ a) : ¬ HB tr a b := by
  intro h
  induction h with
  | edge h =>
    cases h with
    | po hlt hi hj => rw [ha] at hi; cases hi; have := h4 _ _ hj; omega
    | mutex _ hi _ => rw [ha] at hi; cases hi; exact h1 _ rfl
    | thread _ hi _ => rw [ha] at hi; cases hi; exact h2 rfl
    | future _ hi _ => rw [ha] at hi; cases hi; exact h3 _ _ rfl
  | trans _ _ ih _ => exact ih ha h4

/-- The whole path: thread 2 logs, the worker (object 0) hands the message to a sink (object 1), thread 2 waits for a future and ends, and thread 3, which
has joined it, destroys worker and sink. -/
def exPath : List VLabel :=
  [.act 0 .enter, .act 0 (.mem (.lock 0)), .act 0 (.mem (.act 0)),
   .act 0 (.send 2 7), .act 0 (.mem (.lock 2)), .act 0 (.mem (.act 2)), .act 0 (.mem (.unlock 2)), .act 0 (.mem (.notify 2 (some 0))),
   .act 0 (.mem (.lock 0)), .act 0 (.mem (.act 0)), .act 0 (.mem (.unlock 0)), .work 0,
   .act 1 (.send 1 9), .act 1 (.mem (.lock 1)), .act 1 (.mem (.act 1)), .act 1 (.mem (.unlock 1)), .act 1 (.mem (.notify 1 none)), .act 0 .finish,
   .act 1 .enter, .act 1 (.mem (.lock 0)), .act 1 (.mem (.act 0)), .act 1 (.mem (.unlock 0)), .work 1, .act 1 .finish,
   .get 2 0 7, .stop 2, .wait 3 2,
   .act 0 (.dtorSend 3), .act 0 (.mem (.lock 3)), .act 0 (.mem (.act 3)), .act 0 (.mem (.unlock 3)), .act 0 .enter, .act 0 (.mem (.lock 0)),
   .act 0 (.mem (.act 0)), .act 0 (.mem (.unlock 0)), .act 0 .finish, .act 0 (.mem (.notify 3 none)), .act 0 .leave, .act 0 .join,
   .act 1 (.dtorSend 3), .act 1 (.mem (.lock 3)), .act 1 (.mem (.act 3)), .act 1 (.mem (.unlock 3)), .act 1 .enter, .act 1 (.mem (.lock 0)),
   .act 1 (.mem (.act 0)), .act 1 (.mem (.unlock 0)), .act 1 .finish, .act 1 (.mem (.notify 3 none)), .act 1 .leave, .act 1 .join]

/-- The events of `exPath`. -/
theorem exPath_run : ∃ s, vRun 2 (.start 4) exPath = some s ∧ s.tr =
    [(0, .access 0 .flag), (0, .lock 0), (0, .access 0 .queue), (0, .unlock 0), (2, .send 0 7), (2, .lock 0), (2, .access 0 .queue), (2, .unlock 0),
     (2, .notify 0), (0, .lock 0), (0, .access 0 .queue), (0, .unlock 0), (0, .work 0 7), (0, .send 1 9), (0, .lock 1), (0, .access 1 .queue),
     (0, .unlock 1), (0, .notify 1), (0, .set 0 7), (1, .access 1 .flag), (1, .lock 1), (1, .access 1 .queue), (1, .unlock 1), (1, .work 1 9),
     (1, .set 1 9), (2, .got 0 7), (2, .ended), (3, .joined 2), (3, .dtor 0), (3, .lock 0), (3, .access 0 .queue), (3, .unlock 0),
     (0, .access 0 .flag), (0, .lock 0), (0, .access 0 .queue), (0, .unlock 0), (0, .access 0 .flag), (3, .notify 0), (0, .access 0 .flag), (0, .ended),
     (3, .joined 0), (3, .destroy 0), (3, .dtor 1), (3, .lock 1), (3, .access 1 .queue), (3, .unlock 1), (1, .access 1 .flag), (1, .lock 1),
     (1, .access 1 .queue), (1, .unlock 1), (1, .access 1 .flag), (3, .notify 1), (1, .access 1 .flag), (1, .ended), (3, .joined 1), (3, .destroy 1)] :=
  ⟨_, rfl, rfl⟩

theorem tr_cases {tr : VTr} {P : Nat → Nat × MemEv → Prop} (h : ∀ x ∈ tr.zipIdx, P x.2 x.1) {i : Nat} {x : Nat × MemEv} (hi : tr[i]? = some x) : P i x := by
  refine h (x, i) ?_
  rw [List.mem_zipIdx_iff_getElem?]; exact hi

/-- The hypotheses of `C88_callback`, `C88_sender`, `C88_chain`, `C88_future` and `C88_destructor` are met on this path: what thread 2 does before it logs
is visible when the sink writes. -/
example : ∃ s, vRun 2 (.start 4) exPath = some s ∧ HB s.tr 4 12 ∧ HB s.tr 4 23 ∧ HB s.tr 12 25 ∧ HB s.tr 12 41 := by
  obtain ⟨s, h, htr⟩ := exPath_run
  refine ⟨s, h, ?_, ?_, ?_, ?_⟩
  · exact C88_sender h (a := 4) (b := 12) (t := 2) (g := 0) (k := 0) (i := 7) (by rw [htr]; rfl)
      (fun a' t' ha => tr_cases (P := fun i x => x.2 = .send 0 7 → i = 4) (by rw [htr]; decide) ha rfl) (by rw [htr]; rfl) 4 _ (by rw [htr]; rfl) (by decide)
  · exact C88_chain h (a := 4) (b := 23) (c := 12) (d := 13) (t := 2) (g := 1) (k := 0) (k' := 1) (i := 7) (j := 9) (by rw [htr]; rfl)
      (fun a' t' ha => tr_cases (P := fun i x => x.2 = .send 0 7 → i = 4) (by rw [htr]; decide) ha rfl) (by rw [htr]; rfl) (by decide) (by rw [htr]; rfl)
      (fun a' t' ha => tr_cases (P := fun i x => x.2 = .send 1 9 → i = 13) (by rw [htr]; decide) ha rfl) (by rw [htr]; rfl) 4 _ (by rw [htr]; rfl) (by decide)
  · obtain ⟨c, h1, h2, -⟩ := C88_future h (b := 25) (g := 2) (k := 0) (i := 7) (by rw [htr]; rfl)
    have hc : c = 18 := tr_cases (P := fun i x => x.2 = .set 0 7 → i = 18) (by rw [htr]; decide) h1 rfl
    exact h2 12 (.work 0 7) (by rw [htr]; rfl) (by omega)
  · exact (C88_destructor h (b := 41) (d := 3) (k := 0) (by rw [htr]; rfl)).1 12 (.work 0 7) (by rw [htr]; rfl)

/-- The hypotheses of `C89_joined`, and with it of `C89_race_free`, are met on this path. -/
example : ∃ s, vRun 2 (.start 4) exPath = some s ∧ RaceFree s.tr := by
  obtain ⟨s, h, htr⟩ := exPath_run
  refine ⟨s, h, C89_joined h fun k j d hj i g e hi ht h1 h2 => ?_⟩
  have hd := tr_cases (P := fun i x => (match x.2 with | .dtor k => (k == 0 && i == 28 && x.1 == 3) || (k == 1 && i == 42 && x.1 == 3) | _ => true) = true)
    (by rw [htr]; decide) hj
  have hu := tr_cases (P := fun _ x => (match x.2 with
      | .lock k | .unlock k | .notify k | .access k _ | .destroy k =>
        x.1 == k || x.1 == 3 || (k == 0 && x.1 == 2) || (k == 1 && x.1 == 0)
      | _ => true) = true) (by rw [htr]; decide) hi
  simp only [Bool.or_eq_true, Bool.and_eq_true, beq_iff_eq] at hd
  have hu' : g = k ∨ g = 3 ∨ (k = 0 ∧ g = 2) ∨ (k = 1 ∧ g = 0) := by
    cases e <;> simp only [Touches] at ht <;> try subst ht
    all_goals first | exact ht.elim | (simp only [Bool.or_eq_true, Bool.and_eq_true, beq_iff_eq] at hu; omega)
  rcases hd with ⟨⟨rfl, rfl⟩, rfl⟩ | ⟨⟨rfl, rfl⟩, rfl⟩
  · have : g = 2 := by omega
    subst this
    exact ⟨27, by decide, by rw [htr]; rfl⟩
  · have : g = 0 := by omega
    subst this
    exact ⟨40, by decide, by rw [htr]; rfl⟩

/-- C89: the condition is needed: thread 1 has put its message into the queue but not yet called `notify_one` when thread 2 calls the destructor. The
object's thread runs the task, ends and is joined, and nothing orders the `notify_one` of thread 1 and the destruction. -/
theorem C89_needed : ∃ ls s, vRun 1 (.start 3) ls = some s ∧ ¬ RaceFree s.tr := by
  obtain ⟨s, h, htr⟩ : ∃ s, vRun 1 (.start 3)
      [.act 0 (.send 1 7), .act 0 (.mem (.lock 1)), .act 0 (.mem (.act 1)), .act 0 (.mem (.unlock 1)),
       .act 0 (.dtorSend 2), .act 0 (.mem (.lock 2)), .act 0 (.mem (.act 2)), .act 0 (.mem (.unlock 2)), .act 0 (.mem (.notify 2 none)),
       .act 0 .enter, .act 0 (.mem (.lock 0)), .act 0 (.mem (.act 0)), .act 0 (.mem (.unlock 0)), .act 0 .finish,
       .act 0 .enter, .act 0 (.mem (.lock 0)), .act 0 (.mem (.act 0)), .act 0 (.mem (.unlock 0)), .act 0 .finish, .act 0 .leave,
       .act 0 (.mem (.notify 1 none)), .act 0 .join] = some s ∧ s.tr =
      [(1, .send 0 7), (1, .lock 0), (1, .access 0 .queue), (1, .unlock 0), (2, .dtor 0), (2, .lock 0), (2, .access 0 .queue), (2, .unlock 0), (2, .notify 0),
       (0, .access 0 .flag), (0, .lock 0), (0, .access 0 .queue), (0, .unlock 0), (0, .set 0 7),
       (0, .access 0 .flag), (0, .lock 0), (0, .access 0 .queue), (0, .unlock 0), (0, .access 0 .flag), (0, .access 0 .flag), (0, .ended),
       (1, .notify 0), (2, .joined 0), (2, .destroy 0)] := ⟨_, rfl, rfl⟩
  refine ⟨_, s, h, fun hr => ?_⟩
  have h1 : s.tr[21]? = some (1, .notify 0) := by rw [htr]; rfl
  refine HB_none h1 (by simp) (by simp) (by simp) (fun c e' hc => ?_) (hr 21 23 1 2 (.notify 0) (.destroy 0) (by decide) h1 (by rw [htr]; rfl) (.inr (.inr ⟨0, rfl, rfl⟩)))
  exact tr_cases (P := fun i x => x.1 = 1 → i ≤ 21) (by rw [htr]; decide) hc rfl

end G3.Props
