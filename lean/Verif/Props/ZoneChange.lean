import Verif.Spec.ZoneChange
import Verif.Props.Time
import Mathlib.Data.List.Induction
/-
C130: the zone of a time stamp while the program changes its time zone.
-/
namespace G3.Props
open G3 G3.Spec

variable {E : ZoneLib} {z : Str} {ls : List ZoneLabel} {s : ZoneState}

theorem zoneRun_snoc (E : ZoneLib) (s : ZoneState) (ls : List ZoneLabel) (l : ZoneLabel) :
    zoneRun E s (ls ++ [l]) = (zoneRun E s ls).bind (zoneStep E · l) := by
  induction ls generalizing s with
  | nil =>
    change (zoneStep E s l).bind (zoneRun E · []) = zoneStep E s l
    cases zoneStep E s l <;> rfl
  | cons a ls ih =>
    change (zoneStep E s a).bind (zoneRun E · (ls ++ [l])) = ((zoneStep E s a).bind (zoneRun E · ls)).bind (zoneStep E · l)
    cases zoneStep E s a with
    | none => rfl
    | some m => exact ih m

theorem zoneRun_snoc_some {E : ZoneLib} {s v : ZoneState} {ls : List ZoneLabel} {l : ZoneLabel} (h : zoneRun E s (ls ++ [l]) = some v) :
    ∃ u, zoneRun E s ls = some u ∧ zoneStep E u l = some v := by
  rw [zoneRun_snoc] at h
  exact Option.bind_eq_some_iff.1 h

theorem tzAfter_append (z : Str) (a b : List ZoneLabel) : tzAfter z (a ++ b) = tzAfter (tzAfter z a) b := by
  induction a generalizing z with
  | nil => rfl
  | cons l a ih => cases l <;> exact ih _

theorem tzAfter_quiet (z : Str) (b : List ZoneLabel) (h : ∀ l ∈ b, ¬ setsTZ l) : tzAfter z b = z := by
  induction b generalizing z with
  | nil => rfl
  | cons l b ih =>
    have hb := ih z fun x hx => h x (List.mem_cons_of_mem _ hx)
    cases l with
    | setTZ y => exact absurd trivial (h _ (List.mem_cons_self ..))
    | _ => exact hb

theorem stmtTimes_append (a b : List ZoneLabel) : stmtTimes (a ++ b) = stmtTimes a ++ stmtTimes b := List.filterMap_append

/-- A write in detail. -/
theorem zone_write {E : ZoneLib} {u v : ZoneState} {k : Nat} (h : zoneStep E u (.write k) = some v) :
    ∃ i t q x, u.queue k = (i, t) :: q ∧ u.stampOf E k t = some (.ok x) ∧
      v = { u with loaded := some u.tz, queue := fun j => if j = k then q else u.queue j, lines := u.lines ++ [⟨k, i, x⟩] } := by
  unfold zoneStep at h
  dsimp only at h
  cases hq : u.queue k with
  | nil => rw [hq] at h; cases h
  | cons p q =>
    obtain ⟨i, t⟩ := p
    rw [hq] at h; dsimp only at h
    cases hs : u.stampOf E k t with
    | none => rw [hs] at h; cases h
    | some r =>
      rw [hs] at h
      cases r with
      | error e => cases h
      | ok x => exact ⟨i, t, q, x, rfl, hs, (Option.some.inj h).symm⟩

/-- The state of the C library, of TZ and of the queues, from the schedule. -/
structure ZoneInv (E : ZoneLib) (z : Str) (ls : List ZoneLabel) (s : ZoneState) : Prop where
  tz : s.tz = tzAfter z ls
  next : s.next = (stmtTimes ls).length
  loaded : (s.loaded = none ∧ ∀ l ∈ ls, ¬ learns l) ∨
    ∃ a l b, ls = a ++ l :: b ∧ learns l ∧ (∀ x ∈ b, ¬ learns x) ∧ s.loaded = some (tzAfter z a)
  queue : ∀ k, k < E.sinks → writtenBy k ls ≤ (stmtTimes ls).length ∧
    s.queue k = ((stmtTimes ls).zipIdx.map fun p => (p.2, p.1)).drop (writtenBy k ls)
  none : ∀ k, E.sinks ≤ k → s.queue k = [] ∧ writtenBy k ls = 0
  count : s.lines.length = writtenAll ls

theorem zoneInv (h : zoneRun E (ZoneState.start z) ls = some s) : ZoneInv E z ls s := by
  induction ls using List.reverseRecOn generalizing s with
  | nil =>
    obtain rfl := Option.some.inj h
    exact ⟨rfl, rfl, .inl ⟨rfl, by simp⟩, fun k _ => ⟨Nat.le_refl _, rfl⟩, fun k _ => ⟨rfl, rfl⟩, rfl⟩
  | append_singleton ls l ih =>
    obtain ⟨u, hu, hs⟩ := zoneRun_snoc_some h
    have I := ih hu
    have keep : ¬ learns l → s.loaded = u.loaded →
        (s.loaded = none ∧ ∀ x ∈ ls ++ [l], ¬ learns x) ∨
        ∃ a m b, ls ++ [l] = a ++ m :: b ∧ learns m ∧ (∀ x ∈ b, ¬ learns x) ∧ s.loaded = some (tzAfter z a) := by
      intro hl he
      rcases I.loaded with ⟨h1, h2⟩ | ⟨a, m, b, e, hm, hb, h3⟩
      · refine .inl ⟨he.trans h1, fun x hx => ?_⟩
        rcases List.mem_append.1 hx with hx | hx
        · exact h2 x hx
        · rw [List.mem_singleton.1 hx]; exact hl
      · refine .inr ⟨a, m, b ++ [l], by simp [e], hm, fun x hx => ?_, he.trans h3⟩
        rcases List.mem_append.1 hx with hx | hx
        · exact hb x hx
        · rw [List.mem_singleton.1 hx]; exact hl
    cases l with
    | setTZ y =>
      obtain rfl := Option.some.inj hs
      refine ⟨?_, ?_, keep id rfl, ?_, ?_, ?_⟩
      · rw [tzAfter_append]; rfl
      · rw [stmtTimes_append]; simpa [stmtTimes] using I.next
      · intro k hk
        have := I.queue k hk
        simpa [stmtTimes_append, stmtTimes, writtenBy] using this
      · intro k hk
        simpa [writtenBy] using I.none k hk
      · simpa [writtenAll] using I.count
    | tzset =>
      obtain rfl := Option.some.inj hs
      refine ⟨?_, ?_, .inr ⟨ls, .tzset, [], rfl, trivial, by simp, ?_⟩, ?_, ?_, ?_⟩
      · rw [tzAfter_append]; exact I.tz
      · rw [stmtTimes_append]; simpa [stmtTimes] using I.next
      · exact congrArg some I.tz
      · intro k hk
        have := I.queue k hk
        simpa [stmtTimes_append, stmtTimes, writtenBy] using this
      · intro k hk
        simpa [writtenBy] using I.none k hk
      · simpa [writtenAll] using I.count
    | log t =>
      obtain rfl := Option.some.inj hs
      have e : stmtTimes (ls ++ [.log t]) = stmtTimes ls ++ [t] := stmtTimes_append _ _
      have w : ∀ k, writtenBy k (ls ++ [.log t]) = writtenBy k ls := fun k => by simp [writtenBy]
      refine ⟨?_, ?_, keep id rfl, ?_, ?_, ?_⟩
      · rw [tzAfter_append]; exact I.tz
      · rw [e, List.length_append]; exact congrArg (· + 1) I.next
      · intro k hk
        obtain ⟨q1, q2⟩ := I.queue k hk
        rw [w, e]
        refine ⟨by rw [List.length_append]; exact Nat.le_trans q1 (Nat.le_add_right _ _), ?_⟩
        change (if k < E.sinks then u.queue k ++ [(u.next, t)] else u.queue k) = _
        rw [if_pos hk, q2, I.next, List.zipIdx_append, List.map_append, List.drop_append_of_le_length (by simpa using q1)]
        simp
      · intro k hk
        rw [w]
        refine ⟨?_, (I.none k hk).2⟩
        change (if k < E.sinks then _ else u.queue k) = _
        rw [if_neg (Nat.not_lt.2 hk)]; exact (I.none k hk).1
      · simpa [writtenAll] using I.count
    | write k =>
      obtain ⟨i, t, q, x, hq, -, rfl⟩ := zone_write hs
      have e : stmtTimes (ls ++ [.write k]) = stmtTimes ls := by rw [stmtTimes_append]; simp [stmtTimes]
      have hk : k < E.sinks := by
        by_cases hk : k < E.sinks
        · exact hk
        · rw [(I.none k (Nat.not_lt.1 hk)).1] at hq; cases hq
      refine ⟨?_, ?_, .inr ⟨ls, .write k, [], rfl, trivial, by simp, ?_⟩, ?_, ?_, ?_⟩
      · rw [tzAfter_append]; exact I.tz
      · rw [e]; exact I.next
      · exact congrArg some I.tz
      · intro j hj
        obtain ⟨q1, q2⟩ := I.queue j hj
        rw [e]
        by_cases hjk : j = k
        · subst hjk
          have w : writtenBy j (ls ++ [.write j]) = writtenBy j ls + 1 := by simp [writtenBy]
          rw [w]
          rw [hq] at q2
          have hl := congrArg List.length q2
          simp only [List.length_cons, List.length_drop, List.length_map, List.length_zipIdx] at hl
          refine ⟨by omega, ?_⟩
          change (if j = j then q else u.queue j) = _
          rw [if_pos rfl, ← List.tail_drop, ← q2]; rfl
        · have hkj : k ≠ j := fun h => hjk h.symm
          have w : writtenBy j (ls ++ [.write k]) = writtenBy j ls := by
            simp [writtenBy, List.count_append, hkj]
          rw [w]
          refine ⟨q1, ?_⟩
          change (if j = k then q else u.queue j) = _
          rw [if_neg hjk]; exact q2
      · intro j hj
        have hjk : j ≠ k := fun h => by subst h; omega
        refine ⟨?_, ?_⟩
        · change (if j = k then q else u.queue j) = _
          rw [if_neg hjk]; exact (I.none j hj).1
        · have hkj : k ≠ j := fun h => hjk h.symm
          have := (I.none j hj).2
          simpa [writtenBy, List.count_append, hkj] using this
      · change (u.lines ++ [_]).length = _
        rw [List.length_append, I.count]; simp [writtenAll, List.countP_append]

theorem zone_used (I : ZoneInv E z ls s) : ZoneInForce E.look z ls (s.zoneUsed E) := by
  unfold ZoneState.zoneUsed
  cases hk : E.look with
  | true => exact .inl ⟨rfl, I.tz⟩
  | false =>
    rcases I.loaded with ⟨h1, h2⟩ | ⟨a, l, b, e, hl, hb, h3⟩
    · exact .inr (.inl ⟨rfl, h2, by simp [h1, I.tz]⟩)
    · exact .inr (.inr ⟨rfl, a, l, b, e, hl, hb, by simp [h3]⟩)

/-- There is one zone in force. -/
theorem zoneInForce_unique {look : Bool} {p : List ZoneLabel} {y y' : Str} (h : ZoneInForce look z p y) (h' : ZoneInForce look z p y') :
    y = y' := by
  have last : ∀ {a l b a' l' b'}, p = a ++ l :: b → learns l → (∀ x ∈ b, ¬ learns x) → p = a' ++ l' :: b' → learns l' →
      (∀ x ∈ b', ¬ learns x) → a = a' := by
    intro a l b a' l' b' e hl hb e' hl' hb'
    rw [e] at e'
    rcases List.append_eq_append_iff.1 e' with ⟨c, rfl, hc⟩ | ⟨c, rfl, hc⟩
    · cases c with
      | nil => simp
      | cons d c =>
        obtain ⟨rfl, rfl⟩ := List.cons.inj hc
        exact absurd hl' (hb _ (by simp))
    · cases c with
      | nil => simp
      | cons d c =>
        obtain ⟨rfl, rfl⟩ := List.cons.inj hc
        exact absurd hl (hb' _ (by simp))
  rcases h with ⟨k, e⟩ | ⟨k, n, e⟩ | ⟨k, a, l, b, ep, hl, hb, e⟩ <;>
    rcases h' with ⟨k', e'⟩ | ⟨k', n', e'⟩ | ⟨k', a', l', b', ep', hl', hb', e'⟩
  · exact e.trans e'.symm
  · rw [k] at k'; cases k'
  · rw [k] at k'; cases k'
  · rw [k] at k'; cases k'
  · exact e.trans e'.symm
  · exact absurd hl' (n _ (by rw [ep']; simp))
  · rw [k] at k'; cases k'
  · exact absurd hl (n' _ (by rw [ep]; simp))
  · rw [e, e', last ep hl hb ep' hl' hb']

/-- Exactly: a step in which sink k writes is possible if and only if it is a sink that has not written all statements yet and the time of the next
one can be formatted. -/
theorem C130_can (h : zoneRun E (ZoneState.start z) ls = some s) (k : Nat) :
    (zoneStep E s (.write k)).isSome ↔
      k < E.sinks ∧ ∃ t y x, (stmtTimes ls)[writtenBy k ls]? = some t ∧ ZoneInForce E.look z ls y ∧ stampIn E k y t = some (.ok x) := by
  have I := zoneInv h
  constructor
  · intro hs
    obtain ⟨v, hv⟩ := Option.isSome_iff_exists.1 hs
    obtain ⟨i, t, q, x, hq, hx, -⟩ := zone_write hv
    have hk : k < E.sinks := by
      by_cases hk : k < E.sinks
      · exact hk
      · rw [(I.none k (Nat.not_lt.1 hk)).1] at hq; cases hq
    refine ⟨hk, t, _, x, ?_, zone_used I, hx⟩
    have := congrArg (·[0]?) ((I.queue k hk).2.symm.trans hq)
    simp only [List.getElem?_drop, List.getElem?_map, List.getElem?_zipIdx] at this
    simp at this
    obtain ⟨a, b⟩ := this
    simpa using a
  · rintro ⟨hk, t, y, x, ht, hy, hx⟩
    obtain rfl := zoneInForce_unique hy (zone_used I)
    have hq := (I.queue k hk).2
    cases hq' : s.queue k with
    | nil =>
      rw [hq'] at hq
      have := congrArg List.length hq
      simp at this
      obtain ⟨hlt, -⟩ := List.getElem?_eq_some_iff.1 ht
      omega
    | cons p q =>
      obtain ⟨i, t'⟩ := p
      have h0 := congrArg (·[0]?) (hq.symm.trans hq')
      simp only [List.getElem?_drop, List.getElem?_map, List.getElem?_zipIdx] at h0
      simp [ht] at h0
      obtain ⟨-, rfl⟩ := h0
      unfold zoneStep
      dsimp only
      rw [hq']; dsimp only
      have : s.stampOf E k t = some (.ok x) := hx
      rw [this]; rfl

/-- Exactly: the stamp of every write. Sink k writes its statements in their order, each with the time of the statement, in the zone that is in force
when it writes. -/
theorem C130_exact (h : zoneRun E (ZoneState.start z) ls = some s) :
    s.lines.length = writtenAll ls ∧
    ∀ p k r, ls = p ++ .write k :: r → ∃ t y x, k < E.sinks ∧ (stmtTimes p)[writtenBy k p]? = some t ∧ ZoneInForce E.look z p y ∧
      stampIn E k y t = some (.ok x) ∧ s.lines[writtenAll p]? = some ⟨k, writtenBy k p, x⟩ := by
  refine ⟨(zoneInv h).count, ?_⟩
  induction ls using List.reverseRecOn generalizing s with
  | nil => intro p k r e; simp at e
  | append_singleton ls l ih =>
    obtain ⟨u, hu, hs⟩ := zoneRun_snoc_some h
    intro p k r e
    rcases List.eq_nil_or_concat r with rfl | ⟨r', l', rfl⟩
    · obtain ⟨rfl, hl⟩ := List.append_inj' e rfl
      obtain rfl : l = .write k := by simpa using hl
      have I := zoneInv hu
      obtain ⟨i, t, q, x, hq, hx, rfl⟩ := zone_write hs
      have hk : k < E.sinks := by
        by_cases hk : k < E.sinks
        · exact hk
        · rw [(I.none k (Nat.not_lt.1 hk)).1] at hq; cases hq
      have h0 := congrArg (·[0]?) ((I.queue k hk).2.symm.trans hq)
      simp only [List.getElem?_drop, List.getElem?_map, List.getElem?_zipIdx] at h0
      simp at h0
      obtain ⟨h1, h2⟩ := h0
      refine ⟨t, _, x, hk, ?_, zone_used I, hx, ?_⟩
      · simpa using h1
      · rw [← I.count]
        simp [← h2]
    · rw [List.concat_eq_append, ← List.cons_append, ← List.append_assoc] at e
      obtain ⟨rfl, -⟩ := List.append_inj' e rfl
      obtain ⟨t, y, x, h1, h2, h3, h4, h5⟩ := ih hu p k r' rfl
      refine ⟨t, y, x, h1, h2, h3, h4, ?_⟩
      cases l with
      | write j => obtain ⟨i, t', q, x', -, -, rfl⟩ := zone_write hs; exact (List.getElem?_append_left (List.getElem?_eq_some_iff.1 h5).1).trans h5
      | _ => obtain rfl := Option.some.inj hs; exact h5

theorem learns_not_sets {l : ZoneLabel} (h : learns l) : ¬ setsTZ l := by
  cases l <;> first | exact id | exact h.elim

/-- Once the C library has had a look since TZ was last set, stamps are made in the zone of TZ. -/
theorem inForce_settled {look : Bool} {p : List ZoneLabel} {y : Str} (hs : Settled look p) (h : ZoneInForce look z p y) : y = tzAfter z p := by
  rcases h with ⟨-, e⟩ | ⟨-, -, e⟩ | ⟨hk, a, l, b, rfl, hl, hb, e⟩
  · exact e
  · exact e
  · rcases hs with hs | hs
    · rw [hk] at hs; cases hs
    · have hq : ∀ x ∈ l :: b, ¬ setsTZ x := by
        intro x hx
        rcases List.mem_cons.1 hx with rfl | hx
        · exact learns_not_sets hl
        · intro hx'
          cases x with
          | setTZ w =>
            obtain ⟨b1, b2, rfl⟩ := List.append_of_mem hx
            obtain ⟨m, hm, hm'⟩ := hs (a ++ l :: b1) w b2 (by simp)
            exact hb m (by simp [hm]) hm'
          | _ => exact hx'
      rw [e, tzAfter_append, tzAfter_quiet _ _ hq]

theorem write_at {ls : List ZoneLabel} {n : Nat} (h : n < writtenAll ls) : ∃ p k r, ls = p ++ .write k :: r ∧ writtenAll p = n := by
  induction ls using List.reverseRecOn with
  | nil => simp [writtenAll] at h
  | append_singleton ls l ih =>
    by_cases hn : n < writtenAll ls
    · obtain ⟨p, k, r, rfl, e⟩ := ih hn
      exact ⟨p, k, r ++ [l], by simp, e⟩
    · cases l with
      | write k =>
        refine ⟨ls, k, [], rfl, ?_⟩
        simp [writtenAll] at h hn ⊢
        omega
      | _ => simp [writtenAll] at h hn; omega

theorem stmt_at {p : List ZoneLabel} {i : Nat} {t : Int} (h : (stmtTimes p)[i]? = some t) :
    ∃ p1 p2, p = p1 ++ .log t :: p2 ∧ (stmtTimes p1).length = i := by
  induction p using List.reverseRecOn with
  | nil => simp [stmtTimes] at h
  | append_singleton p l ih =>
    rw [stmtTimes_append] at h
    by_cases hi : i < (stmtTimes p).length
    · rw [List.getElem?_append_left hi] at h
      obtain ⟨p1, p2, rfl, e⟩ := ih h
      exact ⟨p1, p2 ++ [l], by simp, e⟩
    · rw [List.getElem?_append_right (Nat.not_lt.1 hi)] at h
      cases l with
      | log t' =>
        have h' : ([t'] : List Int)[i - (stmtTimes p).length]? = some t := h
        have h0 : i - (stmtTimes p).length = 0 := by
          have := (List.getElem?_eq_some_iff.1 h').1
          simpa using this
        rw [h0] at h'
        obtain rfl : t' = t := by simpa using h'
        exact ⟨p, [], rfl, by omega⟩
      | _ => simp [stmtTimes] at h

/-- Every line is of one of the writes. -/
theorem C130_lines (h : zoneRun E (ZoneState.start z) ls = some s) {x : ZoneLine} (hx : x ∈ s.lines) :
    ∃ p1 t p2 r y, ls = p1 ++ .log t :: p2 ++ .write x.sink :: r ∧ (stmtTimes p1).length = x.stmt ∧
      writtenBy x.sink (p1 ++ .log t :: p2) = x.stmt ∧
      ZoneInForce E.look z (p1 ++ .log t :: p2) y ∧ stampIn E x.sink y t = some (.ok x.stamp) := by
  obtain ⟨n, hn, rfl⟩ := List.getElem_of_mem hx
  obtain ⟨hc, he⟩ := C130_exact h
  obtain ⟨p, k, r, rfl, rfl⟩ := write_at (hc ▸ hn)
  obtain ⟨t, y, x, -, h2, h3, h4, h5⟩ := he p k r rfl
  obtain ⟨p1, p2, rfl, e⟩ := stmt_at h2
  rw [(List.getElem?_eq_some_iff.1 h5).2]
  exact ⟨p1, t, p2, r, y, rfl, e, rfl, h3, h4⟩

/-- The property, where it holds: if TZ is not set between a statement and the time when a sink formats its message, and the C library has had a look
at TZ since it was set, stamps are in the zone of the time of their statements. -/
theorem C130_statement_partial (h : zoneRun E (ZoneState.start z) ls = some s)
    (hs : ∀ p k r, ls = p ++ .write k :: r → Settled E.look p)
    (hq : ∀ p1 t p2 k r, ls = p1 ++ .log t :: p2 ++ .write k :: r → (stmtTimes p1).length = writtenBy k (p1 ++ .log t :: p2) →
      ∀ l ∈ p2, ¬ setsTZ l) :
    StampsOfTheirTime E z ls s.lines := by
  intro x hx
  obtain ⟨p1, t, p2, r, y, e, h1, h2, h3, h4⟩ := C130_lines h hx
  refine ⟨p1, t, ⟨⟨p2 ++ .write x.sink :: r, by simp [e]⟩, h1⟩, ?_⟩
  have hy := inForce_settled (hs _ _ _ e) h3
  have hz : tzAfter z (p1 ++ .log t :: p2) = tzAfter z p1 := by
    rw [tzAfter_append]
    exact tzAfter_quiet _ p2 (hq p1 t p2 x.sink r e (h1.trans h2.symm))
  rw [← hz, ← hy]; exact h4

/-- A program that does not set TZ has all stamps in its zone. -/
theorem C130_fixed (h : zoneRun E (ZoneState.start z) ls = some s) (hn : ∀ l ∈ ls, ¬ setsTZ l) :
    ∀ x ∈ s.lines, ∃ p t, StmtAfter ls p x.stmt t ∧ stampIn E x.sink z t = some (.ok x.stamp) := by
  intro x hx
  have := C130_statement_partial h
    (fun p k r e => .inr fun a y b e' => absurd trivial (hn (.setTZ y) (by rw [e, e']; simp)))
    (fun p1 t p2 k r e _ l hl => hn l (by rw [e]; simp [hl])) x hx
  obtain ⟨p, t, h1, h2⟩ := this
  obtain ⟨r, hr⟩ := h1.1
  rw [tzAfter_quiet z p fun l hl => hn l (by rw [hr]; simp [hl])] at h2
  exact ⟨p, t, h1, h2⟩

/-- After TZ has been set, at most one stamp of the process is still made in an earlier zone: once any sink has written (or the program has called
tzset), all stamps until TZ is set again are in the new zone. -/
theorem C130_settles (h : zoneRun E (ZoneState.start z) ls = some s) {a b r : List ZoneLabel} {y : Str} {k : Nat}
    (e : ls = a ++ .setTZ y :: b ++ .write k :: r) (hb : ∀ l ∈ b, ¬ setsTZ l) (hl : E.look = true ∨ ∃ l ∈ b, learns l) :
    ∃ t x, (stmtTimes (a ++ b))[writtenBy k (a ++ b)]? = some t ∧ stampIn E k y t = some (.ok x) ∧
      s.lines[writtenAll (a ++ b)]? = some ⟨k, writtenBy k (a ++ b), x⟩ := by
  obtain ⟨t, w, x, -, h2, h3, h4, h5⟩ := (C130_exact h).2 _ _ _ e
  have e1 : stmtTimes (a ++ .setTZ y :: b) = stmtTimes (a ++ b) := by rw [stmtTimes_append, stmtTimes_append]; rfl
  have e2 : writtenBy k (a ++ .setTZ y :: b) = writtenBy k (a ++ b) := by simp [writtenBy, List.count_append]
  have e3 : writtenAll (a ++ .setTZ y :: b) = writtenAll (a ++ b) := by simp [writtenAll, List.countP_append]
  have ey : tzAfter z (a ++ .setTZ y :: b) = y := by
    rw [tzAfter_append]; exact tzAfter_quiet y b hb
  have hw : w = y := by
    rcases h3 with ⟨-, e'⟩ | ⟨-, -, e'⟩ | ⟨hk, a', l, b', ep, hl', hb', e'⟩
    · exact e'.trans ey
    · exact e'.trans ey
    · rcases hl with hl | ⟨m, hm, hm'⟩
      · rw [hk] at hl; cases hl
      · rcases List.append_eq_append_iff.1 ep with ⟨c, rfl, hc⟩ | ⟨c, rfl, hc⟩
        · cases c with
          | nil => obtain ⟨rfl, rfl⟩ := List.cons.inj hc; exact hl'.elim
          | cons d c =>
            obtain ⟨rfl, rfl⟩ := List.cons.inj hc
            rw [e', tzAfter_append]
            exact tzAfter_quiet y c fun x hx => hb x (by simp [hx])
        · cases c with
          | nil => obtain ⟨rfl, rfl⟩ := List.cons.inj hc; exact hl'.elim
          | cons d c =>
            obtain ⟨rfl, rfl⟩ := List.cons.inj hc
            exact absurd hm' (hb' m (by simp [hm]))
  subst hw
  exact ⟨t, x, e1 ▸ e2 ▸ h2, h4, e3 ▸ e2 ▸ h5⟩

theorem formats_from_epoch (E : ZoneLib) (k : Nat) (y : Str) {t : Int} (ht : 0 ≤ t) : ∃ x, stampIn E k y t = some (.ok x) := by
  obtain ⟨n, rfl⟩ := Int.eq_ofNat_of_zero_le ht
  obtain ⟨d3, d6, d9, -, -, -, h⟩ := C32_substitution n (E.format k)
  exact ⟨_, localtimeFormatted_of _ _ _ _ _ _ h⟩

/-- With times from 1970 on, a sink can write as long as there are statements it has not written, whatever the zones and formats. -/
theorem C130_from_epoch (h : zoneRun E (ZoneState.start z) ls = some s) (ht : ∀ t, .log t ∈ ls → 0 ≤ t) (k : Nat) :
    (zoneStep E s (.write k)).isSome ↔ k < E.sinks ∧ writtenBy k ls < (stmtTimes ls).length := by
  rw [C130_can h k]
  constructor
  · rintro ⟨hk, t, y, x, h1, -⟩
    exact ⟨hk, (List.getElem?_eq_some_iff.1 h1).1⟩
  · rintro ⟨hk, hl⟩
    obtain ⟨t, h1⟩ : ∃ t, (stmtTimes ls)[writtenBy k ls]? = some t := ⟨_, List.getElem?_eq_getElem hl⟩
    obtain ⟨p1, p2, e, -⟩ := stmt_at h1
    have h0 := ht t (by rw [e]; simp)
    obtain ⟨x, hx⟩ := formats_from_epoch E k (s.zoneUsed E) h0
    exact ⟨hk, _, _, x, h1, zone_used (zoneInv h), hx⟩

/-- In the format that the library uses by itself, a stamp shows the local date and time in the zone in force when the sink formats, and the
microseconds of the statement. -/
theorem C130_default (h : zoneRun E (ZoneState.start z) ls = some s) {p r : List ZoneLabel} {k : Nat} (e : ls = p ++ .write k :: r)
    (hf : E.format k = defaultTimeFormat) (ht : ∀ t, .log t ∈ ls → 0 ≤ t) (hv : ∀ y t, tmValid (E.rules y t)) :
    ∃ (n : Nat) (y : Str) (f : StampFields (E.rules y (n / 1000000000)) (n % 1000000000 / 1000)),
      (stmtTimes p)[writtenBy k p]? = some (n : Int) ∧ ZoneInForce E.look z p y ∧
      s.lines[writtenAll p]? = some ⟨k, writtenBy k p, .text f.text⟩ := by
  obtain ⟨t, y, x, -, h2, h3, h4, h5⟩ := (C130_exact h).2 p k r e
  obtain ⟨p1, p2, e', -⟩ := stmt_at h2
  have h0 := ht t (by rw [e, e']; simp)
  obtain ⟨n, rfl⟩ := Int.eq_ofNat_of_zero_le h0
  obtain ⟨f, hf', -⟩ := C58_default_stamp E.other (E.rules y) E.ndebug n (hv _ _)
  have : stampIn E k y n = some (.ok (.text f.text)) := by
    unfold stampIn; rw [hf]; exact hf'
  rw [this] at h4
  obtain rfl : PutTime.text f.text = x := by simpa using h4
  exact ⟨n, y, f, h2, h3, h5⟩

/-- Zones for the examples: in A it is one hour later than in B. -/
def zoneExample (look : Bool) : ZoneLib :=
  { rules := fun y _ => { year := 2024, mon := 1, mday := 1, hour := if y = ['A'] then 2 else 1, min := 0, sec := 0 }
    look := look, other := fun _ _ => [], ndebug := true, sinks := 2, format := fun _ => ['%', 'H'] }

/-- The property does not hold: TZ is set while the message waits, and the stamp is in a zone that was not in force at the statement. Whatever
localtime_r does. -/
theorem C130_negation (look : Bool) : ∃ E z ls s, E.look = look ∧ zoneRun E (ZoneState.start z) ls = some s ∧ ¬ StampsOfTheirTime E z ls s.lines := by
  obtain ⟨s, hs, hl⟩ : ∃ s, zoneRun (zoneExample look) (ZoneState.start ['A']) [.log 0, .setTZ ['B'], .write 0] = some s ∧
      s.lines = [⟨0, 0, .text ['0', '1']⟩] := (Option.map_eq_some_iff (f := ZoneState.lines)).1 (by cases look <;> decide +kernel)
  refine ⟨zoneExample look, ['A'], _, s, rfl, hs, ?_⟩
  rw [hl]
  · intro h
    obtain ⟨p, t, ⟨⟨r, hr⟩, hl⟩, hx⟩ := h ⟨0, 0, .text ['0', '1']⟩ (by simp)
    cases p with
    | nil =>
      obtain ⟨h1, -⟩ := List.cons.inj hr
      injection h1 with h1
      subst h1
      have : stampIn (zoneExample look) 0 ['A'] 0 = some (.ok (.text ['0', '2'])) := by cases look <;> decide +kernel
      rw [show tzAfter ['A'] [] = ['A'] from rfl, this] at hx
      exact absurd hx (by decide)
    | cons d p =>
      obtain ⟨rfl, -⟩ := List.cons.inj hr
      simp [stmtTimes] at hl

/-- One statement has different stamps in two sinks. -/
theorem C130_sinks_negation (look : Bool) : ∃ s, zoneRun (zoneExample look) (ZoneState.start ['A']) [.log 0, .write 0, .setTZ ['B'], .tzset, .write 1] = some s ∧
    s.lines = [⟨0, 0, .text ['0', '2']⟩, ⟨1, 0, .text ['0', '1']⟩] := by
  exact (Option.map_eq_some_iff (f := ZoneState.lines)).1 (by cases look <;> decide +kernel)

/-- Where localtime_r does not look at TZ: TZ is set before two statements, and the stamp of the first is still in the earlier zone, so that the stamps
of a file go back while the times do not. -/
theorem C130_stale_negation : ∃ s, zoneRun (zoneExample false) (ZoneState.start ['A']) [.tzset, .setTZ ['B'], .log 0, .write 0, .log 1, .write 0] = some s ∧
    s.lines = [⟨0, 0, .text ['0', '2']⟩, ⟨0, 1, .text ['0', '1']⟩] :=
  (Option.map_eq_some_iff (f := ZoneState.lines)).1 (by decide +kernel)

/-- The hypotheses of `C130_settles` are met by a program that sets TZ, calls tzset and logs. -/
example : (∃ s, zoneRun (zoneExample false) (ZoneState.start ['A']) ([.log 5, .write 0] ++ .setTZ ['B'] :: [.tzset, .log 7] ++ .write 0 :: []) = some s ∧
    s.lines = [⟨0, 0, .text ['0', '2']⟩, ⟨0, 1, .text ['0', '1']⟩]) ∧
    (∀ l ∈ [ZoneLabel.tzset, .log 7], ¬ setsTZ l) ∧ ∃ l ∈ [ZoneLabel.tzset, .log 7], learns l :=
  ⟨(Option.map_eq_some_iff (f := ZoneState.lines)).1 (by decide +kernel), by simp [setsTZ], .tzset, by simp, trivial⟩

/-- Those of `C130_statement_partial` too. -/
example : let ls : List ZoneLabel := [.setTZ ['B'], .tzset, .log 7, .write 0]
    (∃ s, zoneRun (zoneExample false) (ZoneState.start ['A']) ls = some s ∧ s.lines = [⟨0, 0, .text ['0', '1']⟩]) ∧
    (∀ p k r, ls = p ++ .write k :: r → Settled false p) ∧
    (∀ p1 t p2 k r, ls = p1 ++ .log t :: p2 ++ .write k :: r → (stmtTimes p1).length = writtenBy k (p1 ++ .log t :: p2) → ∀ l ∈ p2, ¬ setsTZ l) := by
  refine ⟨(Option.map_eq_some_iff (f := ZoneState.lines)).1 (by decide +kernel), ?_, ?_⟩
  · intro p k r e
    rcases p with _ | ⟨a, _ | ⟨b, _ | ⟨c, _ | ⟨d, p⟩⟩⟩⟩ <;> simp at e
    obtain ⟨rfl, rfl, rfl, -⟩ := e
    refine .inr fun a y b e => ?_
    rcases a with _ | ⟨a1, _ | ⟨a2, _ | ⟨a3, a⟩⟩⟩ <;> simp at e
    exact ⟨.tzset, by simp [← e.2], trivial⟩
  · intro p1 t p2 k r e _
    rcases p1 with _ | ⟨a, _ | ⟨b, _ | ⟨c, _ | ⟨d, p⟩⟩⟩⟩ <;> simp at e
    rcases p2 with _ | ⟨x, p2⟩ <;> simp at e ⊢

/-- And those of `C130_from_epoch` and `C130_default`, for a library with the default format. -/
example : let E : ZoneLib := { zoneExample false with format := fun _ => defaultTimeFormat }
    (∃ s, zoneRun E (ZoneState.start ['A']) ([.log 1500, .tzset] ++ .write 0 :: []) = some s ∧
      s.lines = [⟨0, 0, .text "2024/01/01 02:00:00 000001".toList⟩]) ∧
    (∀ t, .log t ∈ [ZoneLabel.log 1500, .tzset, .write 0] → 0 ≤ t) ∧ ∀ y t, tmValid (E.rules y t) := by
  refine ⟨(Option.map_eq_some_iff (f := ZoneState.lines)).1 (by decide +kernel), by simp, fun y t => ?_⟩
  simp only [zoneExample]
  split <;> (unfold tmValid; decide)

end G3.Props
