import Verif.Proofs.Calendar
import Verif.Props.Time
import Verif.Props.FileName
import Verif.Model.FileSink
/-
C116: what time stamps and the names of log files say about the moment, in time zones with changes of the clocks.
-/
namespace G3.Props
open G3 G3.Spec G3.Proofs.Calendar

variable {other : Char → TM → Str} {lt : Int → TM} {off : Int → Int} {nd : Bool}

/-! ### The calendar -/

/-- C116: the calendar is that of POSIX: what a clock shows after n seconds is the date to which POSIX assigns n seconds, and it is a date that exists. -/
theorem C116_calendar (n : Nat) : posixSeconds (wallClock n) = n ∧ 1 ≤ (wallClock n).mon ∧ (wallClock n).mon ≤ 12 ∧ 1 ≤ (wallClock n).mday ∧
    (wallClock n).mday ≤ monthLength (wallClock n).year (wallClock n).mon ∧ (wallClock n).hour ≤ 23 ∧ (wallClock n).min ≤ 59 ∧ (wallClock n).sec ≤ 59 :=
  let p := proper_wall n
  ⟨posix_wall n, p.m1, p.m2, p.d1, p.d2, p.h, p.mi, p.s⟩

theorem valid_wall {n : Nat} (h : n < 253402300800) : tmValid (wallClock n) := by
  have p := proper_wall n
  have := year_bound h
  have := monthLength_le (wallClock n).year (wallClock n).mon
  have := p.y
  have := p.d2
  have := p.s
  exact ⟨by omega, by omega, p.m1, p.m2, p.d1, by omega, p.h, p.mi, by omega⟩

/-- What `localtime` gives. -/
theorem zone_at (hz : InZone lt off) {n : Nat} (hn : InYears off n) :
    ∃ k : Nat, (k : Int) = wallSecond off n ∧ lt ((n : Int) / 1000000000) = wallClock k ∧ tmValid (lt ((n : Int) / 1000000000)) := by
  obtain ⟨h1, h2⟩ := hn
  have e : ((n / 1000000000 : Nat) : Int) = (n : Int) / 1000000000 := by omega
  unfold wallSecond at *
  rw [e] at h1 h2
  have hl := hz _ h1
  refine ⟨((n : Int) / 1000000000 + off ((n : Int) / 1000000000)).toNat, by rw [e]; omega, hl, ?_⟩
  rw [hl]
  exact valid_wall (by omega)

/-! ### Time stamps -/

/-- C116: what a stamp says: it is made of the numerals of a date, and the POSIX seconds of that date together with the microseconds are the moment that the
clocks showed. So whoever knows how far the clocks were ahead gets the moment back, to the microsecond. -/
theorem C116_decode (hz : InZone lt off) (n : Nat) (hn : InYears off n) :
    ∃ (t : TM) (us : Nat) (f : StampFields t us), localtimeFormatted other lt nd (n : Int) defaultTimeFormat = some (.ok (.text f.text)) ∧
      posixSeconds t * 1000000 + us = wallMicro off n ∧ (n / 1000 : Nat) = wallMicro off n - off (n / 1000000000 : Nat) * 1000000 := by
  obtain ⟨k, h1, h2, h3⟩ := zone_at hz hn
  obtain ⟨f, hf, _⟩ := C58_default_stamp other lt nd n h3
  refine ⟨_, _, f, hf, ?_, ?_⟩
  · rw [h2, posix_wall, h1]; rfl
  · unfold wallMicro wallSecond; omega

theorem stamp_unique {t : TM} {us : Nat} (f g : StampFields t us) : f.text = g.text := by
  unfold StampFields.text
  rw [fixedWidth_unique f.hy g.hy, fixedWidth_unique f.hmo g.hmo, fixedWidth_unique f.hd g.hd, fixedWidth_unique f.hh g.hh,
    fixedWidth_unique f.hmi g.hmi, fixedWidth_unique f.hs g.hs, fixedWidth_unique f.hu g.hu]

/-- C116: the order of the stamps, as texts, is the order of what the clocks showed, to the microsecond; and two stamps are the same text exactly when
the clocks showed the same microsecond. -/
theorem C116_exact (hz : InZone lt off) (m n : Nat) (hm : InYears off m) (hn : InYears off n) :
    ∃ a b, localtimeFormatted other lt nd (m : Int) defaultTimeFormat = some (.ok (.text a)) ∧
      localtimeFormatted other lt nd (n : Int) defaultTimeFormat = some (.ok (.text b)) ∧
      (lexLt a b ↔ wallMicro off m < wallMicro off n) ∧ (a = b ↔ wallMicro off m = wallMicro off n) := by
  obtain ⟨k, h1, h2, h3⟩ := zone_at hz hm
  obtain ⟨j, g1, g2, g3⟩ := zone_at hz hn
  obtain ⟨f, hf, _⟩ := C58_default_stamp other lt nd m h3
  obtain ⟨g, hg, _⟩ := C58_default_stamp other lt nd n g3
  have hmu : m % 1000000000 / 1000 < 1000000 := by omega
  have hnu : n % 1000000000 / 1000 < 1000000 := by omega
  refine ⟨f.text, g.text, hf, hg, ?_⟩
  clear hf hg h3 g3
  unfold wallMicro
  generalize m % 1000000000 / 1000 = u at *
  generalize n % 1000000000 / 1000 = v at *
  generalize lt ((m : Int) / 1000000000) = t at *
  generalize lt ((n : Int) / 1000000000) = t' at *
  subst h2 g2
  have o1 := C58_stamp_order f g
  have o2 := C58_stamp_order g f
  have s1 := C58_stamp_order f f
  rw [tmLt_wall] at o1 o2 s1
  refine ⟨by rw [o1]; omega, ?_⟩
  constructor
  · intro he
    rw [← he] at o1 o2
    have n1 := fun h => s1.mp (o1.mpr h)
    have n2 := fun h => s1.mp (o2.mpr h)
    omega
  · intro he
    obtain rfl : u = v := by omega
    obtain rfl : k = j := by omega
    exact stamp_unique f g

/-- C116 as far as it holds: while the clocks are not changed, stamps are in the order of the moments, and different microseconds have different stamps. -/
theorem C116_unchanged_partial (hz : InZone lt off) (m n : Nat) (hm : InYears off m) (hn : InYears off n)
    (hc : off (m / 1000000000 : Nat) = off (n / 1000000000 : Nat)) :
    ∃ a b, localtimeFormatted other lt nd (m : Int) defaultTimeFormat = some (.ok (.text a)) ∧
      localtimeFormatted other lt nd (n : Int) defaultTimeFormat = some (.ok (.text b)) ∧
      (lexLt a b ↔ m / 1000 < n / 1000) ∧ (a = b ↔ m / 1000 = n / 1000) := by
  obtain ⟨a, b, h1, h2, h3, h4⟩ := C116_exact (other := other) (nd := nd) hz m n hm hn
  refine ⟨a, b, h1, h2, h3.trans ?_, h4.trans ?_⟩ <;>
    · unfold wallMicro wallSecond; rw [hc]; omega

/-- C116: when the clocks are put forward nothing goes wrong either: the later moment has the later stamp. -/
theorem C116_forward_partial (hz : InZone lt off) (m n : Nat) (hm : InYears off m) (hn : InYears off n)
    (hc : off (m / 1000000000 : Nat) ≤ off (n / 1000000000 : Nat)) (hmn : m / 1000 < n / 1000) :
    ∃ a b, localtimeFormatted other lt nd (m : Int) defaultTimeFormat = some (.ok (.text a)) ∧
      localtimeFormatted other lt nd (n : Int) defaultTimeFormat = some (.ok (.text b)) ∧ lexLt a b ∧ a ≠ b := by
  obtain ⟨a, b, h1, h2, h3, h4⟩ := C116_exact (other := other) (nd := nd) hz m n hm hn
  have : wallMicro off m < wallMicro off n := by unfold wallMicro wallSecond; omega
  exact ⟨a, b, h1, h2, h3.mpr this, fun he => absurd (h4.mp he) (by omega)⟩

/-- C116 fails wherever clocks are put back, for example at the end of summer time: every moment of the time before is followed, d seconds later, by one
with the very same stamp; and the moments of the last second before the change have later stamps than those of the first second after it. -/
theorem C116_negation (hz : InZone lt off) (T d a : Int) (hb : PutBack off T d a) (hT : 0 ≤ T - d) (h1 : 0 ≤ T - d + a) (h2 : T + a < 253402300800) :
    (∀ n : Nat, T - d ≤ (n / 1000000000 : Nat) → (n / 1000000000 : Nat) < T →
      ∃ x, localtimeFormatted other lt nd (n : Int) defaultTimeFormat = some (.ok (.text x)) ∧
        localtimeFormatted other lt nd ((n + d.toNat * 1000000000 : Nat) : Int) defaultTimeFormat = some (.ok (.text x))) ∧
    (∀ m n : Nat, (m / 1000000000 : Nat) = T - 1 → (n / 1000000000 : Nat) = T → (n % 1000000000 / 1000 < m % 1000000000 / 1000 ∨ 1 < d) →
      ∃ x y, localtimeFormatted other lt nd (m : Int) defaultTimeFormat = some (.ok (.text x)) ∧
        localtimeFormatted other lt nd (n : Int) defaultTimeFormat = some (.ok (.text y)) ∧ lexLt y x) := by
  obtain ⟨b1, b2, b3⟩ := hb
  constructor
  · intro n hn1 hn2
    generalize hk : n + d.toNat * 1000000000 = k
    have e1 : (k / 1000000000 : Nat) = n / 1000000000 + d.toNat := by omega
    have o1 := b2 _ hn1 hn2
    have o2 := b3 ((n / 1000000000 + d.toNat : Nat) : Int) (by omega) (by omega)
    have w1 : wallSecond off n = (n / 1000000000 : Nat) + a := by unfold wallSecond; rw [o1]
    have w2 : wallSecond off k = (n / 1000000000 : Nat) + a := by
      unfold wallSecond; rw [e1, o2]; omega
    obtain ⟨x, y, hx, hy, _, he⟩ := C116_exact (other := other) (nd := nd) hz n k ⟨by omega, by omega⟩ ⟨by omega, by omega⟩
    have hxy : x = y := he.mpr (by unfold wallMicro; rw [w1, w2]; omega)
    exact ⟨x, hx, hxy ▸ hy⟩
  · intro m n hm hn hd
    have o1 := b2 ((m / 1000000000 : Nat) : Int) (by omega) (by omega)
    have o2 := b3 ((n / 1000000000 : Nat) : Int) (by omega) (by omega)
    have w1 : wallSecond off m = T - 1 + a := by unfold wallSecond; rw [o1]; omega
    have w2 : wallSecond off n = T + (a - d) := by unfold wallSecond; rw [o2]; omega
    obtain ⟨y, x, hy, hx, ho, he⟩ := C116_exact (other := other) (nd := nd) hz n m ⟨by omega, by omega⟩ ⟨by omega, by omega⟩
    exact ⟨x, y, hx, hy, ho.mpr (by unfold wallMicro; rw [w1, w2]; omega)⟩

/-! ### Names of log files -/

/-- The time in the name of a file depends on the second only. -/
theorem file_stamp_eq (m n : Nat) (h : lt ((m : Int) / 1000000000) = lt ((n : Int) / 1000000000)) :
    localtimeFormatted other lt nd (m : Int) "%Y%m%d-%H%M%S".toList = localtimeFormatted other lt nd (n : Int) "%Y%m%d-%H%M%S".toList := by
  have hs : ∀ k : Nat, formattedFractions (k : Int) "%Y%m%d-%H%M%S".toList = some (.ok "%Y%m%d-%H%M%S".toList) := by
    intro k
    obtain ⟨d3, d6, d9, _, _, _, hs⟩ := C32_substitution k "%Y%m%d-%H%M%S".toList
    have hsub : substFractions d3 d6 d9 "%Y%m%d-%H%M%S".toList = "%Y%m%d-%H%M%S".toList := findAux_none _ _ _ _ 0 (by decide)
    rw [hsub] at hs
    exact hs
  rw [localtimeFormatted_of _ _ _ _ _ _ (hs m), localtimeFormatted_of _ _ _ _ _ _ (hs n), h]

/-- C116: the times in the names of log files are the same exactly when the clocks showed the same second. -/
theorem C116_file_stamp (hz : InZone lt off) (m n : Nat) (hm : InYears off m) (hn : InYears off n) :
    ∃ a b, localtimeFormatted other lt nd (m : Int) "%Y%m%d-%H%M%S".toList = some (.ok (.text a)) ∧
      localtimeFormatted other lt nd (n : Int) "%Y%m%d-%H%M%S".toList = some (.ok (.text b)) ∧ a.length = b.length ∧
      (a = b ↔ wallSecond off m = wallSecond off n) := by
  obtain ⟨k, h1, h2, h3⟩ := zone_at hz hm
  obtain ⟨j, g1, g2, g3⟩ := zone_at hz hn
  obtain ⟨a, b, ha, hb, hl, hlt⟩ := C58_file_stamp other lt nd m n h3 g3
  obtain ⟨b', a', hb', ha', hl', hlt'⟩ := C58_file_stamp other lt nd n m g3 h3
  obtain ⟨a2, a3, ha2, ha3, _, hlt2⟩ := C58_file_stamp other lt nd m m h3 h3
  rw [ha] at ha' ha2 ha3
  rw [hb] at hb'
  simp only [Option.some.injEq, Except.ok.injEq, PutTime.text.injEq] at ha' ha2 ha3 hb'
  subst ha' ha2 hb'
  rw [← ha3] at hlt2
  rw [h2, tmLt_wall] at hlt2
  rw [h2, g2, tmLt_wall] at hlt hlt'
  refine ⟨a, b, ha, hb, by rw [hl, hl'], ?_⟩
  constructor
  · intro he
    rw [← he] at hlt hlt'
    have n1 := fun h => hlt2.mp (hlt.mpr h)
    have n2 := fun h => hlt2.mp (hlt'.mpr h)
    omega
  · intro he
    have hk : k = j := by omega
    have := file_stamp_eq (other := other) (nd := nd) m n (lt := lt) (by rw [h2, g2, hk])
    rw [ha, hb] at this
    simpa using this

/-- C116: two log files made with prefixes that g3log accepts have the same name exactly when prefix and id are the same and the clocks showed the
same second. -/
theorem C116_names (hz : InZone lt off) (m n : Nat) (hm : InYears off m) (hn : InYears off n) (p q i j : Str) (hp : '.' ∉ p) (hq : '.' ∉ q) :
    ∃ a b, localtimeFormatted other lt nd (m : Int) "%Y%m%d-%H%M%S".toList = some (.ok (.text a)) ∧
      localtimeFormatted other lt nd (n : Int) "%Y%m%d-%H%M%S".toList = some (.ok (.text b)) ∧
      (createLogFileName p i a = createLogFileName q j b ↔ p = q ∧ i = j ∧ wallSecond off m = wallSecond off n) := by
  obtain ⟨a, b, ha, hb, hl, he⟩ := C116_file_stamp (other := other) (nd := nd) hz m n hm hn
  refine ⟨a, b, ha, hb, ?_, ?_⟩
  · intro h
    obtain ⟨h1, h2, h3⟩ := C56_injective p q i j a b hp hq hl h
    exact ⟨h1, h2, he.mp h3⟩
  · rintro ⟨rfl, rfl, h⟩
    rw [he.mpr h]

/-- The path of a file sink whose directory could be opened. -/
theorem new_opened {fs fs1 : FS} {lp d i ts : Str} {N : Nat} {o : Bool} {s : FileSink} (h : FileSink.new fs lp d i N ts true o = .ok (s, fs1)) :
    ∃ p, acceptPrefix lp = some p ∧ s.path = pathSanityFix d (createLogFileName p i ts) ∧ fs1 = fs.set s.path [] := by
  unfold FileSink.new at h
  cases hp : acceptPrefix lp with
  | none => rw [hp] at h; simp at h
  | some p =>
    rw [hp] at h
    simp only [createLogFile, if_true, Except.ok.injEq, Prod.mk.injEq] at h
    obtain ⟨h1, h2⟩ := h
    subst h1
    exact ⟨p, rfl, rfl, h2.symm⟩

theorem pathSanityFix_inj (d : Str) {x y : Str} (h : pathSanityFix d x = pathSanityFix d y) : x = y := by
  rcases C37_cases d with hb | ⟨e, tail, h1, h2, h3, h4⟩
  · rwa [C37_blank d x hb, C37_blank d y hb] at h
  · rw [C37_path_partial d x e tail h1 h2 h3 h4, C37_path_partial d y e tail h1 h2 h3 h4] at h
    exact List.append_cancel_left h

/-- C116: a program that is started again (same prefix, directory and id) empties the log file of its previous run exactly if the clocks show the second
that they showed when that file was made; otherwise it leaves it alone. -/
theorem C116_restart (hz : InZone lt off) (m n : Nat) (hm : InYears off m) (hn : InYears off n) (lp d i : Str) :
    ∃ a b, localtimeFormatted other lt nd (m : Int) "%Y%m%d-%H%M%S".toList = some (.ok (.text a)) ∧
      localtimeFormatted other lt nd (n : Int) "%Y%m%d-%H%M%S".toList = some (.ok (.text b)) ∧
      ∀ (fs fs1 fs2 fs3 : FS) (s1 s2 : FileSink) (N N' : Nat) (o o' : Bool),
        FileSink.new fs lp d i N a true o = .ok (s1, fs1) → FileSink.new fs2 lp d i N' b true o' = .ok (s2, fs3) →
        (wallSecond off m = wallSecond off n → s2.path = s1.path ∧ fs3 s1.path = some []) ∧
        (wallSecond off m ≠ wallSecond off n → s2.path ≠ s1.path ∧ fs3 s1.path = fs2 s1.path) := by
  obtain ⟨a, b, ha, hb, hl, he⟩ := C116_file_stamp (other := other) (nd := nd) hz m n hm hn
  refine ⟨a, b, ha, hb, ?_⟩
  intro fs fs1 fs2 fs3 s1 s2 N N' o o' h1 h2
  obtain ⟨p, p1, p2, p3⟩ := new_opened h1
  obtain ⟨q, q1, q2, q3⟩ := new_opened h2
  rw [p1] at q1
  obtain rfl : p = q := Option.some.inj q1
  constructor
  · intro hw
    have : s2.path = s1.path := by rw [p2, q2, he.mpr hw]
    refine ⟨this, ?_⟩
    rw [q3, this]
    simp [FS.set]
  · intro hw
    have : s2.path ≠ s1.path := by
      intro hp
      rw [p2, q2] at hp
      have := pathSanityFix_inj d hp
      have hd : '.' ∉ p := fun hx => by have := C36_clean lp p p1 '.' hx; revert this; decide
      obtain ⟨_, _, h5⟩ := C56_injective p p i i b a hd hd hl.symm this
      exact hw (he.mp h5.symm)
    refine ⟨this, ?_⟩
    rw [q3]
    simp [FS.set, this.symm]

/-- C116 fails for log files too: after clocks have been put back, a program that is started d seconds after its previous start empties the log
file of the previous run, though the two starts lie far apart. -/
theorem C116_restart_negation (hz : InZone lt off) (T d a : Int) (hb : PutBack off T d a) (hT : 0 ≤ T - d) (h1 : 0 ≤ T - d + a) (h2 : T + a < 253402300800)
    (n k : Nat) (hn1 : T - d ≤ (n / 1000000000 : Nat)) (hn2 : (n / 1000000000 : Nat) < T) (hk : (k / 1000000000 : Nat) = (n / 1000000000 : Nat) + d)
    (lp dir i : Str) :
    ∃ x y, localtimeFormatted other lt nd (n : Int) "%Y%m%d-%H%M%S".toList = some (.ok (.text x)) ∧
      localtimeFormatted other lt nd (k : Int) "%Y%m%d-%H%M%S".toList = some (.ok (.text y)) ∧
      ∀ (fs fs1 fs2 fs3 : FS) (s1 s2 : FileSink) (N N' : Nat) (o o' : Bool),
        FileSink.new fs lp dir i N x true o = .ok (s1, fs1) → FileSink.new fs2 lp dir i N' y true o' = .ok (s2, fs3) →
        fs3 s1.path = some [] := by
  obtain ⟨b1, b2, b3⟩ := hb
  have o1 := b2 _ hn1 hn2
  have o2 := b3 ((k / 1000000000 : Nat) : Int) (by omega) (by omega)
  have w1 : wallSecond off n = (n / 1000000000 : Nat) + a := by unfold wallSecond; rw [o1]
  have w2 : wallSecond off k = (n / 1000000000 : Nat) + a := by unfold wallSecond; rw [o2]; omega
  obtain ⟨x, y, hx, hy, h⟩ := C116_restart (other := other) (nd := nd) hz n k ⟨by omega, by omega⟩ ⟨by omega, by omega⟩ lp dir i
  exact ⟨x, y, hx, hy, fun fs fs1 fs2 fs3 s1 s2 N N' o o' e1 e2 => ((h fs fs1 fs2 fs3 s1 s2 N N' o o' e1 e2).1 (by rw [w1, w2])).2⟩

/-! ### Examples -/

/-- Central Europe in 2026: summer time ends on 25 October at 01:00 UTC. -/
def berlin2026 (t : Int) : Int := if t < 1792890000 then 7200 else 3600

example : PutBack berlin2026 1792890000 3600 7200 := by
  refine ⟨by decide, fun t _ h => if_pos h, fun t h _ => ?_⟩
  unfold berlin2026
  rw [if_neg (by omega)]
  rfl

/-- A `localtime` for every zone. -/
example (off : Int → Int) : InZone (fun t => wallClock (t + off t).toNat) off := fun _ _ => rfl

/-- 25 October 2026, 03:00:00, the moment when the clocks of Berlin are put back to 02:00:00, and the beginning of the year 10000. -/
example : posixSeconds ⟨2026, 10, 25, 3, 0, 0⟩ = 1792890000 + 7200 ∧ posixSeconds ⟨10000, 1, 1, 0, 0, 0⟩ = 253402300800 ∧
    posixSeconds ⟨2000, 3, 1, 0, 0, 0⟩ = posixSeconds ⟨2000, 2, 29, 23, 59, 59⟩ + 1 := by decide +kernel

example : InYears berlin2026 1792889999000000000 ∧ InYears berlin2026 1792893599999999999 := by
  unfold InYears wallSecond berlin2026; decide +kernel

end G3.Props
