import Verif.Spec.Locale
import Verif.Proofs.Str
import Verif.Props.Time
import Mathlib.Tactic.ByContra
/-
C107: the text that g3log produces itself, in every locale.
-/
namespace G3.Props
open G3 G3.Spec

/-! ### Punctuated numbers -/

theorem groupSize_next (g : Int) (gs : List Int) (i : Nat) : groupSize (if gs = [] then [g] else gs) i = groupSize (g :: gs) (i + 1) := by
  cases gs with
  | nil =>
    have one : ∀ i, (if i < [g].length then [g][i]? else [g].getLast?) = some g := by
      intro i
      cases i <;> rfl
    unfold groupSize
    rw [if_pos rfl, one, one]
  | cons a gs =>
    unfold groupSize
    simp only [List.cons_ne_nil, if_false, List.length_cons, List.getElem?_cons_succ, List.getLast?_cons_cons, Nat.add_lt_add_iff_right]

/-- What the groups have to be, from the right, by the size of group number `i`. -/
def SizesFit (f : Nat → Option Nat) : List Str → Prop
  | [] => False
  | [a] => a ≠ [] ∧ ∀ g, f 0 = some g → a.length ≤ g
  | a :: b :: r => f 0 = some a.length ∧ SizesFit (fun i => f (i + 1)) (b :: r)

theorem groupRev_parts (sep : Char) : ∀ (fuel : Nat) (gs : List Int) (ds : Str), ds ≠ [] → ds.length ≤ fuel →
    ∃ parts, groupRev sep fuel gs ds = joined sep parts ∧ parts.flatten = ds ∧ SizesFit (groupSize gs) parts := by
  intro fuel
  induction fuel with
  | zero => intro gs ds hne hl; exact absurd (List.length_eq_zero_iff.1 (by omega)) hne
  | succ fuel ih =>
    intro gs ds hne hl
    have one : (∀ g, groupSize gs 0 = some g → ds.length ≤ g) → groupRev sep (fuel + 1) gs ds = ds →
        ∃ parts, groupRev sep (fuel + 1) gs ds = joined sep parts ∧ parts.flatten = ds ∧ SizesFit (groupSize gs) parts :=
      fun h1 h2 => ⟨[ds], h2, by simp, hne, h1⟩
    cases gs with
    | nil => exact one (fun g e => by cases e) rfl
    | cons g gs =>
      have size0 : groupSize (g :: gs) 0 = if 0 < g ∧ g ≠ 127 then some g.toNat else none := rfl
      by_cases hc : g ≤ 0 ∨ g = charMax ∨ ds.length ≤ g.toNat
      · refine one ?_ (by simp only [groupRev, if_pos hc])
        intro x hx
        rw [size0] at hx
        split at hx
        · next h =>
          injection hx with hx
          rcases hc with h1 | h1 | h1
          · omega
          · exact absurd h1 h.2
          · omega
        · cases hx
      · have hg : 0 < g ∧ g ≠ 127 := ⟨by omega, fun e => hc (Or.inr (Or.inl e))⟩
        have hlen : g.toNat < ds.length := by
          by_contra e
          exact hc (Or.inr (Or.inr (by omega)))
        obtain ⟨parts, h1, h2, h3⟩ := ih (if gs = [] then [g] else gs) (ds.drop g.toNat)
          (fun e => by have := congrArg List.length e; rw [List.length_drop, List.length_nil] at this; omega) (by rw [List.length_drop]; omega)
        cases parts with
        | nil => exact h3.elim
        | cons b r =>
          refine ⟨ds.take g.toNat :: b :: r, ?_, ?_, ?_, ?_⟩
          · simp only [groupRev, if_neg hc, h1, joined]
          · rw [List.flatten_cons, h2, List.take_append_drop]
          · rw [size0, if_pos hg, List.length_take, Nat.min_eq_left (by omega)]
          · have : (fun i => groupSize (g :: gs) (i + 1)) = groupSize (if gs = [] then [g] else gs) := by
              funext i; rw [groupSize_next]
            rw [this]
            exact h3

theorem joined_snoc (sep : Char) (a : Str) : ∀ (l : List Str), l ≠ [] → joined sep (l ++ [a]) = joined sep l ++ sep :: a
  | [], h => absurd rfl h
  | [_], _ => rfl
  | x :: y :: r, _ => by
    have := joined_snoc sep a (y :: r) (by simp)
    simp only [List.cons_append, joined, List.append_assoc] at this ⊢
    rw [this]

theorem joined_reverse (sep : Char) : ∀ (l : List Str), (joined sep l).reverse = joined sep (l.map List.reverse).reverse
  | [] => rfl
  | [a] => rfl
  | a :: b :: r => by
    have := joined_reverse sep (b :: r)
    have e : joined sep (a :: b :: r) = a ++ sep :: joined sep (b :: r) := rfl
    rw [e, List.map_cons, List.reverse_cons, joined_snoc _ _ _ (by simp), ← this]
    simp

/-- In terms of the specification. -/
theorem sizes_iff (f : Nat → Option Nat) : ∀ (l : List Str), SizesFit f l ↔
    l ≠ [] ∧ (∀ (i : Nat) r, i + 1 < l.length → l[i]? = some r → f i = some r.length) ∧ ∀ r, l.getLast? = some r → r ≠ [] ∧ ∀ g, f (l.length - 1) = some g → r.length ≤ g
  | [] => by simp [SizesFit]
  | [a] => by simp [SizesFit]
  | a :: b :: r => by
    have ih := sizes_iff (fun i => f (i + 1)) (b :: r)
    simp only [SizesFit, ih]
    constructor
    · rintro ⟨h0, _, h1, h2⟩
      refine ⟨by simp, ?_, ?_⟩
      · intro i x hi hx
        cases i with
        | zero => cases hx; exact h0
        | succ i => exact h1 i x (by simpa using hi) (by simpa using hx)
      · intro x hx
        have := h2 x (by simpa [List.getLast?_cons_cons] using hx)
        exact ⟨this.1, fun g hg => this.2 g (by simpa using hg)⟩
    · rintro ⟨_, h1, h2⟩
      refine ⟨h1 0 a (by simp) rfl, by simp, ?_, ?_⟩
      · intro i x hi hx
        exact h1 (i + 1) x (by simpa using hi) (by simpa using hx)
      · intro x hx
        have := h2 x (by simpa [List.getLast?_cons_cons] using hx)
        exact ⟨this.1, fun g hg => this.2 g (by simpa using hg)⟩

theorem punctuated_iff (p : NumPunct) (ds out : Str) : Punctuated p ds out ↔
    ∃ parts, out.reverse = joined p.sep parts ∧ parts.flatten = ds.reverse ∧ SizesFit (groupSize p.grouping) parts := by
  have flip : ∀ l : List Str, (l.map List.reverse).reverse.flatten = l.flatten.reverse := by
    intro l
    induction l with
    | nil => rfl
    | cons a l ih => simp [List.flatten_append, ih]
  constructor
  · rintro ⟨parts, h1, h2, h3, h4, h5⟩
    refine ⟨(parts.map List.reverse).reverse, ?_, ?_, (sizes_iff _ _).2 ⟨by simpa using h3, ?_, ?_⟩⟩
    · rw [h1, joined_reverse]
    · rw [flip, h2]
    · intro i r hi hr
      rw [← List.map_reverse, List.getElem?_map, Option.map_eq_some_iff] at hr
      obtain ⟨x, hx, rfl⟩ := hr
      rw [List.length_reverse]
      exact h4 i x (by simpa using hi) hx
    · intro r hr
      rw [List.getLast?_reverse, List.head?_map, Option.map_eq_some_iff] at hr
      obtain ⟨x, hx, rfl⟩ := hr
      obtain ⟨a, b⟩ := h5 x hx
      refine ⟨by simpa using a, fun g hg => ?_⟩
      rw [List.length_reverse]
      exact b g (by simpa using hg)
  · rintro ⟨parts, h1, h2, h3⟩
    obtain ⟨h3, h4, h5⟩ := (sizes_iff _ _).1 h3
    refine ⟨(parts.map List.reverse).reverse, ?_, ?_, by simpa using h3, ?_, ?_⟩
    · rw [← joined_reverse, ← h1, List.reverse_reverse]
    · rw [flip, h2, List.reverse_reverse]
    · intro i r hi hr
      rw [List.reverse_reverse, List.getElem?_map, Option.map_eq_some_iff] at hr
      obtain ⟨x, hx, rfl⟩ := hr
      rw [List.length_reverse]
      exact h4 i x (by simpa using hi) hx
    · intro r hr
      rw [List.head?_reverse, List.getLast?_map, Option.map_eq_some_iff] at hr
      obtain ⟨x, hx, rfl⟩ := hr
      obtain ⟨a, b⟩ := h5 x hx
      refine ⟨by simpa using a, fun g hg => ?_⟩
      rw [List.length_reverse]
      exact b g (by simpa using hg)

/-- C107: numbers in the text are punctuated as the locale in force says. -/
theorem C107_punctuated (p : NumPunct) (n : Nat) : Punctuated p (decNat n) (putNat p n) := by
  obtain ⟨parts, h1, h2, h3⟩ := groupRev_parts p.sep (decNat n).length p.grouping (decNat n).reverse
    (fun e => decNat_ne_nil n (List.reverse_eq_nil_iff.1 e)) (by simp)
  exact (punctuated_iff p _ _).2 ⟨parts, by rw [putNat, List.reverse_reverse, h1], h2, h3⟩

theorem parts_nonempty {f : Nat → Option Nat} : ∀ {l : List Str}, SizesFit f l → l.flatten ≠ []
  | [], h => h.elim
  | [a], h => by simpa using h.1
  | a :: b :: r, h => by
    have := parts_nonempty h.2
    rw [List.flatten_cons]
    intro e
    exact this (List.append_eq_nil_iff.1 e).2

theorem parts_unique : ∀ {f : Nat → Option Nat} {l m : List Str}, SizesFit f l → SizesFit f m → l.flatten = m.flatten → l = m
  | _, [], _, h, _, _ => h.elim
  | _, _ :: _, [], _, h, _ => h.elim
  | _, [a], [b], _, _, e => by simpa using e
  | _, [a], b :: c :: r, h1, h2, e => by
    exfalso
    have h3 := h1.2 _ h2.1
    have := parts_nonempty h2.2
    rw [List.flatten_cons (l := b)] at e
    have e := congrArg List.length e
    have : 0 < (c :: r).flatten.length := List.length_pos_iff.2 this
    rw [List.length_append] at e
    simp only [List.flatten_cons, List.flatten_nil, List.append_nil] at e h3 this
    omega
  | _, b :: c :: r, [a], h2, h1, e => by
    exfalso
    have h3 := h1.2 _ h2.1
    have := parts_nonempty h2.2
    rw [List.flatten_cons (l := b)] at e
    have e := congrArg List.length e
    have : 0 < (c :: r).flatten.length := List.length_pos_iff.2 this
    rw [List.length_append] at e
    simp only [List.flatten_cons, List.flatten_nil, List.append_nil] at e h3 this
    omega
  | _, a :: b :: r, c :: d :: q, h1, h2, e => by
    have hl : a.length = c.length := by
      have := h1.1.symm.trans h2.1
      injection this
    rw [List.flatten_cons, List.flatten_cons (l := c)] at e
    obtain ⟨e1, e2⟩ := List.append_inj e hl
    rw [e1, parts_unique h1.2 h2.2 e2]

/-- The specification says exactly what is written. -/
theorem C107_only (p : NumPunct) (n : Nat) (out : Str) (h : Punctuated p (decNat n) out) : out = putNat p n := by
  obtain ⟨l, h1, h2, h3⟩ := (punctuated_iff _ _ _).1 h
  obtain ⟨m, g1, g2, g3⟩ := (punctuated_iff _ _ _).1 (C107_punctuated p n)
  have := parts_unique h3 g3 (h2.trans g2.symm)
  subst this
  exact List.reverse_inj.1 (h1.trans g1.symm)

theorem joined_length (sep : Char) : ∀ (l : List Str), l ≠ [] → (joined sep l).length + 1 = l.flatten.length + l.length
  | [], h => absurd rfl h
  | [a], _ => by simp [joined]
  | a :: b :: r, _ => by
    have := joined_length sep (b :: r) (by simp)
    rw [joined, List.flatten_cons]
    simp only [List.length_append, List.length_cons] at this ⊢
    omega

theorem joined_filter (sep : Char) : ∀ (l : List Str), (∀ c ∈ l.flatten, c ≠ sep) → (joined sep l).filter (· ≠ sep) = l.flatten
  | [], _ => rfl
  | [a], h => by
    simp only [joined, List.flatten_cons, List.flatten_nil, List.append_nil] at h ⊢
    exact List.filter_eq_self.2 (fun c hc => by simpa using h c hc)
  | a :: b :: r, h => by
    rw [List.flatten_cons] at h ⊢
    have ih := joined_filter sep (b :: r) (fun c hc => h c (List.mem_append_right _ hc))
    rw [joined, List.filter_append, List.filter_cons_of_neg (by simp), ih]
    congr 1
    exact List.filter_eq_self.2 (fun c hc => by simpa using h c (List.mem_append_left _ hc))

/-- C107: without the separators it is the number, unless the locale separates with digits. -/
theorem C107_digits (p : NumPunct) (n : Nat) (hs : ¬ isDig p.sep) : (putNat p n).filter (· ≠ p.sep) = decNat n := by
  obtain ⟨parts, h1, h2, _⟩ := C107_punctuated p n
  rw [h1, joined_filter _ _ (by rw [h2]; intro c hc e; exact hs (e ▸ decNat_isDig n c hc)), h2]

/-- The number has at most as many digits as the first group. -/
def Short (p : NumPunct) (n : Nat) : Prop := ∀ g, groupSize p.grouping 0 = some g → n < 10 ^ g

theorem groupSize_pos {gs : List Int} {i g : Nat} (h : groupSize gs i = some g) : 1 ≤ g := by
  unfold groupSize at h
  split at h
  · cases h
  · split at h
    · next hx => injection h with h; omega
    · cases h

theorem put_length (p : NumPunct) (n : Nat) : (decNat n).length ≤ (putNat p n).length ∧ ((putNat p n).length = (decNat n).length → putNat p n = decNat n ∧ Short p n) := by
  obtain ⟨parts, h1, h2, h3, h4, h5⟩ := C107_punctuated p n
  have hl := joined_length p.sep parts h3
  rw [← h1, h2] at hl
  have hp : 0 < parts.length := List.length_pos_iff.2 h3
  refine ⟨by omega, fun e => ?_⟩
  have : parts.length = 1 := by omega
  match parts, this with
  | [a], _ =>
    have ha : a = decNat n := by simpa using h2
    subst ha
    refine ⟨h1, fun g hg => ?_⟩
    exact (decNat_len_le_iff g n (groupSize_pos hg)).1 ((h5 (decNat n) rfl).2 g hg)

/-- C107: a number reads the same as everywhere exactly if it is so short. -/
theorem C107_same (p : NumPunct) (n : Nat) : putNat p n = decNat n ↔ Short p n := by
  refine ⟨fun e => ((put_length p n).2 (by rw [e])).2, fun h => ?_⟩
  refine (C107_only p n (decNat n) ⟨[decNat n], rfl, by simp, by simp, ?_, ?_⟩).symm
  · intro i r hi; simp at hi
  · intro r hr
    cases hr
    exact ⟨decNat_ne_nil n, fun g hg => (decNat_len_le_iff g n (groupSize_pos hg)).2 (h g hg)⟩

theorem putInt_length (p : NumPunct) (i : Int) : (decInt i).length ≤ (putInt p i).length ∧ ((putInt p i).length = (decInt i).length → Short p i.natAbs) := by
  obtain ⟨h1, h2⟩ := put_length p i.natAbs
  unfold putInt decInt
  split
  · simp only [List.length_cons]
    exact ⟨by omega, fun e => (h2 (by omega)).2⟩
  · exact ⟨h1, fun e => (h2 e).2⟩

theorem putInt_short {p : NumPunct} {i : Int} (h : Short p i.natAbs) : putInt p i = decInt i := by
  unfold putInt decInt
  rw [(C107_same p _).2 h]

/-- The classic locale punctuates nothing. -/
theorem C107_classic (n : Nat) : putNat .classic n = decNat n := (C107_same _ _).2 (fun g e => by cases e)

/-! ### Entries -/

theorem toString_uses {E E' : Env} {m : LogMessage} {f : DetailsFn} (h1 : E.stamp = E'.stamp) (h2 : details E (m.overrideDetails f) = details E' (m.overrideDetails f)) :
    (toString E m f).1 = (toString E' m f).1 := by
  unfold toString normalToString fatalSignalToString fatalExceptionToString fatalLogToString fatalCheckToString
  simp only [h1, h2]

/-- C107: in the default format no entry depends on the locale. -/
theorem C107_default_partial (E : Env) (p : NumPunct) (m : LogMessage) : (toStringDefault (E.inLocale p) m).1 = (toStringDefault E m).1 :=
  toString_uses rfl rfl

/-- The entry shows its details. -/
def ShowsDetails (m : LogMessage) : Prop := m.level.value ≠ FATAL_SIGNAL.value ∧ m.level.value ≠ FATAL_EXCEPTION.value

theorem toString_details (E : Env) (m : LogMessage) (f : DetailsFn) (h : ShowsDetails m) : ∃ r, ∀ E' : Env, E'.stamp = E.stamp → (toString E' m f).1 = details E' (m.overrideDetails f) ++ r := by
  unfold toString normalToString fatalSignalToString fatalExceptionToString fatalLogToString fatalCheckToString
  have h1 : ¬ FATAL_SIGNAL.value = (m.overrideDetails f).level.value := fun e => h.1 e.symm
  have h2 : ¬ FATAL_EXCEPTION.value = (m.overrideDetails f).level.value := fun e => h.2 e.symm
  simp only [if_neg h1, if_neg h2]
  by_cases c1 : wasFatal (m.overrideDetails f).level = false
  · simp only [if_pos c1]; exact ⟨_, fun _ _ => rfl⟩
  · simp only [if_neg c1]
    by_cases c2 : FATAL.value = (m.overrideDetails f).level.value
    · simp only [if_pos c2]; exact ⟨_, fun _ _ => rfl⟩
    · simp only [if_neg c2]
      by_cases c3 : CONTRACT.value = (m.overrideDetails f).level.value
      · simp only [if_pos c3]; exact ⟨_, fun _ _ => rfl⟩
      · simp only [if_neg c3]; exact ⟨_, fun _ _ => rfl⟩

/-- C107: in the full format an entry reads the same in two locales exactly if the thread id does, or if it shows none. -/
theorem C107_full (E : Env) (p q : NumPunct) (m : LogMessage) :
    (toString (E.inLocale p) m .full).1 = (toString (E.inLocale q) m .full).1 ↔ (ShowsDetails m → putNat p m.threadId = putNat q m.threadId) := by
  constructor
  · intro h hd
    obtain ⟨r, hr⟩ := toString_details E m .full hd
    rw [hr (E.inLocale p) rfl, hr (E.inLocale q) rfl] at h
    have h := List.append_cancel_right h
    have e : ∀ p, details (E.inLocale p) (m.overrideDetails .full) = (E.stamp m.timestamp ++ "\t".toList ++ m.level.text ++ " [".toList) ++ putNat p m.threadId ++
        (" ".toList ++ m.file ++ "->".toList ++ m.function ++ ":".toList ++ decInt m.line ++ "]\t".toList) := by
      intro p
      show E.stamp m.timestamp ++ "\t".toList ++ m.level.text ++ " [".toList ++ putNat p m.threadId ++ " ".toList ++ m.file ++ "->".toList ++ m.function ++ ":".toList ++ decInt m.line ++ "]\t".toList = _
      simp only [List.append_assoc]
    rw [e, e] at h
    exact List.append_cancel_left (List.append_cancel_right h)
  · intro h
    by_cases hd : ShowsDetails m
    · refine toString_uses rfl ?_
      show E.stamp m.timestamp ++ "\t".toList ++ m.level.text ++ " [".toList ++ putNat p m.threadId ++ " ".toList ++ m.file ++ "->".toList ++ m.function ++ ":".toList ++ decInt m.line ++ "]\t".toList =
        E.stamp m.timestamp ++ "\t".toList ++ m.level.text ++ " [".toList ++ putNat q m.threadId ++ " ".toList ++ m.file ++ "->".toList ++ m.function ++ ":".toList ++ decInt m.line ++ "]\t".toList
      rw [h hd]
    · unfold ShowsDetails at hd
      unfold toString fatalSignalToString fatalExceptionToString
      by_cases c1 : FATAL_SIGNAL.value = (m.overrideDetails .full).level.value
      · have hf : ¬ wasFatal (m.overrideDetails .full).level = false := by
          unfold wasFatal
          rw [← c1]; decide
        simp only [if_neg hf, if_pos c1]
        rfl
      · have c2 : FATAL_EXCEPTION.value = (m.overrideDetails .full).level.value := by
          by_contra c2
          exact hd ⟨fun e => c1 e.symm, fun e => c2 e.symm⟩
        have hf : ¬ wasFatal (m.overrideDetails .full).level = false := by
          unfold wasFatal
          rw [← c2]; decide
        simp only [if_neg hf, if_neg c1, if_pos c2]
        rfl

/-! ### Fatal signals -/

/-- C107: the report of a fatal signal reads the same in every locale in which its numbers are short, and in no other. -/
theorem C107_signal (p : NumPunct) (n pid errno code : Int) :
    signalTextIn p n pid errno code = signalText n pid errno code ↔ ∀ i ∈ [n, pid, errno, code], Short p i.natAbs := by
  have reason : (exitReasonName FATAL_SIGNAL n).length ≤ (exitReasonNameIn p FATAL_SIGNAL n).length ∧ (Short p n.natAbs → exitReasonNameIn p FATAL_SIGNAL n = exitReasonName FATAL_SIGNAL n) := by
    unfold exitReasonName exitReasonNameIn
    (repeat' split) <;> first
      | exact ⟨Nat.le_refl _, fun _ => rfl⟩
      | (refine ⟨?_, fun h => by rw [putInt_short h]⟩
         have := (putInt_length p n).1
         simp only [List.length_append]
         omega)
  constructor
  · intro h
    have hl := congrArg List.length h
    unfold signalTextIn signalText at hl
    simp only [List.length_append] at hl
    obtain ⟨a1, a2⟩ := putInt_length p n
    obtain ⟨b1, b2⟩ := putInt_length p pid
    obtain ⟨c1, c2⟩ := putInt_length p errno
    obtain ⟨d1, d2⟩ := putInt_length p code
    have r := reason.1
    intro i hi
    simp only [List.mem_cons, List.not_mem_nil, or_false] at hi
    rcases hi with rfl | rfl | rfl | rfl
    · exact a2 (by omega)
    · exact b2 (by omega)
    · exact c2 (by omega)
    · exact d2 (by omega)
  · intro h
    have hn := h n (by simp)
    unfold signalTextIn signalText
    rw [reason.2 hn, putInt_short hn, putInt_short (h pid (by simp)), putInt_short (h errno (by simp)), putInt_short (h code (by simp))]

/-- C107: of the name of a signal only the number of a signal without a name depends on the locale. -/
theorem C107_reason (p : NumPunct) (level : Level) (n : Int) :
    (exitReasonName level n = "UNKNOWN SIGNAL(".toList ++ decInt n ++ ") for ".toList ++ level.text ∧
      exitReasonNameIn p level n = "UNKNOWN SIGNAL(".toList ++ putInt p n ++ ") for ".toList ++ level.text) ∨
    (n ∈ [SIGABRT, SIGFPE, SIGSEGV, SIGILL, SIGTERM] ∧ exitReasonNameIn p level n = exitReasonName level n) := by
  unfold exitReasonName exitReasonNameIn
  (repeat' split) <;> first
    | exact Or.inl ⟨rfl, rfl⟩
    | (refine Or.inr ⟨?_, rfl⟩; subst_vars; simp)

/-- C107: of a line of the stack dump only the index depends on the locale, and it does. -/
theorem C107_frame (p : NumPunct) (dem : Str → Option Str) (idx : Nat) (s : Str) :
    (∃ e, frameTextIn p dem idx s = .error e ∧ frameText dem idx s = .error e) ∨
    ∃ r, frameText dem idx s = .ok ("\tstack dump [".toList ++ decNat idx ++ r) ∧ frameTextIn p dem idx s = .ok ("\tstack dump [".toList ++ putNat p idx ++ r) := by
  unfold frameTextIn frameText
  cases parseFrame s with
  | error e => exact Or.inl ⟨_, rfl, rfl⟩
  | ok r =>
    obtain ⟨mangled, offset⟩ := r
    right
    by_cases c : mangled ≠ [] ∧ offset ≠ []
    · simp only [if_pos c]
      cases dem (cstr mangled) with
      | some real => exact ⟨"]  ".toList ++ real ++ " + ".toList ++ offset ++ ['\n'], by simp only [List.append_assoc], by simp only [List.append_assoc]⟩
      | none => exact ⟨"]  ".toList ++ mangled ++ " + ".toList ++ offset ++ ['\n'], by simp only [List.append_assoc], by simp only [List.append_assoc]⟩
    · simp only [if_neg c]
      exact ⟨"]  ".toList ++ s ++ ['\n'], by simp only [List.append_assoc], by simp only [List.append_assoc]⟩

/-- C107: the lines of the stack dump are the same in every locale that does not punctuate numbers of two digits. -/
theorem C107_dump (p : NumPunct) (dem : Str → Option Str) (hp : ∀ n, n < 100 → Short p n) : ∀ (fs : List Str) (idx : Nat), idx + fs.length ≤ 100 →
    dumpLoopIn p dem idx fs = dumpLoop dem idx fs
  | [], _, _ => rfl
  | s :: fs, idx, h => by
    rw [List.length_cons] at h
    have e : frameTextIn p dem idx s = frameText dem idx s := by
      unfold frameTextIn frameText
      rw [(C107_same p idx).2 (hp idx (by omega))]
      rfl
    rw [dumpLoopIn, dumpLoop, e, C107_dump p dem hp fs (idx + 1) (by omega)]
    rfl

/-! ### Time stamps -/

/-- C107: a time format with numeric conversions only gives the same text whatever names the locale has. -/
theorem C107_time (other other' : Char → TM → Str) (t : TM) : ∀ (fmt : Str), numericOnly fmt = true → strftimeText other t fmt = strftimeText other' t fmt
  | [], _ => rfl
  | [_], _ => rfl
  | c :: d :: r, h => by
    rw [numericOnly] at h
    rw [strftimeText, strftimeText]
    by_cases hc : c = '%'
    · rw [if_pos hc] at h
      rw [if_pos hc, if_pos hc]
      rw [Bool.and_eq_true] at h
      rw [C107_time other other' t r h.2]
      congr 1
      have hd : d ∈ "YmdHMS%".toList := by simpa using h.1
      simp at hd
      rcases hd with rfl | rfl | rfl | rfl | rfl | rfl | rfl <;> rfl
    · rw [if_neg hc] at h
      rw [if_neg hc, if_neg hc, C107_time other other' t (d :: r) h]

/-- C107: so is the time stamp of the entries (with `C107_default_partial`: the whole entry). -/
theorem C107_stamp_partial (other other' : Char → TM → Str) (lt : Int → TM) (ndebug : Bool) (n : Nat) (hv : tmValid (lt (n / 1000000000))) :
    localtimeFormatted other lt ndebug (n : Int) defaultTimeFormat = localtimeFormatted other' lt ndebug (n : Int) defaultTimeFormat := by
  obtain ⟨f, hf, _⟩ := C58_default_stamp other lt ndebug n hv
  obtain ⟨g, hg, _⟩ := C58_default_stamp other' lt ndebug n hv
  rw [hf, hg]
  unfold StampFields.text
  rw [fixedWidth_unique f.hy g.hy, fixedWidth_unique f.hmo g.hmo, fixedWidth_unique f.hd g.hd, fixedWidth_unique f.hh g.hh, fixedWidth_unique f.hmi g.hmi,
    fixedWidth_unique f.hs g.hs, fixedWidth_unique f.hu g.hu]

/-! ### When -/

theorem inForce_snoc (ls : List LocaleLabel) (l : LocaleLabel) : inForce (ls ++ [l]) = match l with | .setLocale q => q | _ => inForce ls := by
  unfold inForce
  rw [List.foldl_append]; rfl

theorem writes_snoc (ls : List LocaleLabel) (l : LocaleLabel) :
    localesOfWrites (ls ++ [l]) = localesOfWrites ls ++ (match l with | .write => [inForce ls] | _ => []) := by
  unfold localesOfWrites
  rw [List.length_append, List.length_singleton, List.range_succ, List.filterMap_append]
  congr 1
  · refine List.filterMap_congr (fun i hi => ?_)
    have hi := List.mem_range.1 hi
    rw [List.getElem?_append_left hi, List.take_append_of_le_length (by omega)]
  · rw [List.filterMap_cons, List.filterMap_nil, List.getElem?_append_right (Nat.le_refl _), Nat.sub_self, List.take_left' rfl]
    cases l <;> rfl

theorem logged_snoc (ls : List LocaleLabel) (l : LocaleLabel) : loggedIn (ls ++ [l]) = loggedIn ls ++ (match l with | .log m => [m] | _ => []) := by
  unfold loggedIn
  rw [List.filterMap_append]
  cases l <;> rfl

theorem localeRun_snoc {E : Env} {f : DetailsFn} {s s' : LocaleState} {l : LocaleLabel} : ∀ {ls : List LocaleLabel}, localeRun E f s (ls ++ [l]) = some s' ↔
    ∃ u, localeRun E f s ls = some u ∧ localeStep E f u l = some s' := by
  intro ls
  induction ls generalizing s with
  | nil =>
    simp only [List.nil_append, localeRun]
    constructor
    · intro h; obtain ⟨u, hu, h⟩ := Option.bind_eq_some_iff.1 h; cases h; exact ⟨s, rfl, hu⟩
    · rintro ⟨u, hu, h⟩; cases hu; rw [h]; rfl
  | cons a ls ih =>
    simp only [List.cons_append, localeRun]
    constructor
    · intro h
      obtain ⟨u, hu, h⟩ := Option.bind_eq_some_iff.1 h
      obtain ⟨v, hv, h⟩ := ih.1 h
      exact ⟨v, by rw [hu]; exact hv, h⟩
    · rintro ⟨v, hv, h⟩
      obtain ⟨u, hu, hv⟩ := Option.bind_eq_some_iff.1 hv
      rw [hu]
      exact ih.2 ⟨v, hv, h⟩

theorem zip_more {A B C : Type} (g : A → B → C) {m : B} : ∀ {ps : List A} (ms : List B), ps.length ≤ ms.length → List.zipWith g ps (ms ++ [m]) = List.zipWith g ps ms
  | [], _, _ => by simp
  | _ :: _, [], h => by cases h
  | p :: ps, x :: ms, h => by
    simp only [List.cons_append, List.zipWith_cons_cons]
    rw [zip_more g ms (by simpa using h)]

theorem zip_next {A B C : Type} (g : A → B → C) {p : A} {m : B} : ∀ {ps : List A} (ms : List B), ms[ps.length]? = some m → List.zipWith g (ps ++ [p]) ms = List.zipWith g ps ms ++ [g p m]
  | [], [], h => by cases h
  | [], x :: ms, h => by cases h; simp
  | _ :: _, [], h => by cases h
  | a :: ps, x :: ms, h => by
    simp only [List.cons_append, List.zipWith_cons_cons]
    rw [zip_next g ms (by simpa using h)]

theorem locale_inv {E : Env} {f : DetailsFn} : ∀ (n : Nat) (ls : List LocaleLabel) {s : LocaleState}, ls.length = n → localeRun E f .start ls = some s →
    s.punct = inForce ls ∧ s.queue = (loggedIn ls).drop (localesOfWrites ls).length ∧ (localesOfWrites ls).length ≤ (loggedIn ls).length ∧
    s.written = List.zipWith (fun p m => (toString (E.inLocale p) m f).1) (localesOfWrites ls) (loggedIn ls) := by
  intro n
  induction n with
  | zero =>
    intro ls s hn h
    cases List.length_eq_zero_iff.1 hn
    cases h
    exact ⟨rfl, rfl, Nat.le_refl _, rfl⟩
  | succ n ih =>
    intro ls s hn h
    rcases List.eq_nil_or_concat ls with rfl | ⟨ls, l, rfl⟩
    · cases hn
    rw [List.concat_eq_append] at hn h ⊢
    obtain ⟨u, hu, h⟩ := localeRun_snoc.1 h
    obtain ⟨i1, i2, i3, i4⟩ := ih ls (by simpa using hn) hu
    rw [inForce_snoc, writes_snoc, logged_snoc]
    cases l with
    | setLocale p =>
      cases h
      simp only [List.append_nil]
      exact ⟨trivial, i2, i3, i4⟩
    | log m =>
      cases h
      simp only [List.append_nil, List.length_append, List.length_singleton]
      refine ⟨i1, ?_, by omega, ?_⟩
      · rw [List.drop_append_of_le_length i3, i2]
      · rw [i4]
        exact (zip_more _ _ i3).symm
    | write =>
      simp only [localeStep] at h
      split at h
      · cases h
      · next m q hq =>
        cases h
        rw [i2] at hq
        have hm : (loggedIn ls)[(localesOfWrites ls).length]? = some m := by
          have := congrArg (·[0]?) hq
          simpa using this
        have hlt : (localesOfWrites ls).length < (loggedIn ls).length := (List.getElem?_eq_some_iff.1 hm).1
        simp only [List.append_nil, List.length_append, List.length_singleton]
        refine ⟨i1, ?_, by omega, ?_⟩
        · rw [← List.drop_drop, hq]; rfl
        · rw [i4, i1, zip_next _ _ hm]

/-- C107: the entries are written in the order in which they were logged, each in the locale that is in force when it is written. -/
theorem C107_when {E : Env} {f : DetailsFn} {ls : List LocaleLabel} {s : LocaleState} (h : localeRun E f .start ls = some s) :
    s.written = List.zipWith (fun p m => (toString (E.inLocale p) m f).1) (localesOfWrites ls) (loggedIn ls) ∧
    s.queue = (loggedIn ls).drop (localesOfWrites ls).length ∧ (localesOfWrites ls).length ≤ (loggedIn ls).length :=
  let ⟨_, h2, h3, h4⟩ := locale_inv _ ls rfl h
  ⟨h4, h2, h3⟩

/-- C107: in the default format the file has the same lines whatever locales are set, and when. -/
theorem C107_default_file_partial {E : Env} {ls : List LocaleLabel} {s : LocaleState} (h : localeRun E .default .start ls = some s) :
    s.written ++ s.queue.map (fun m => (toString E m .default).1) = (loggedIn ls).map fun m => (toString E m .default).1 := by
  obtain ⟨h1, h2, h3⟩ := C107_when h
  have : ∀ (ps : List NumPunct) (ms : List LogMessage), ps.length ≤ ms.length →
      List.zipWith (fun p m => (toString (E.inLocale p) m .default).1) ps ms ++ (ms.drop ps.length).map (fun m => (toString E m .default).1) = ms.map fun m => (toString E m .default).1 := by
    intro ps
    induction ps with
    | nil => intro ms _; rfl
    | cons p ps ih =>
      intro ms hl
      cases ms with
      | nil => cases hl
      | cons m ms =>
        have e := C107_default_partial E p m
        simp only [List.zipWith_cons_cons, List.length_cons, List.drop_succ_cons, List.map_cons, List.cons_append]
        rw [ih ms (by simpa using hl)]
        exact congrArg (· :: _) e
  rw [h1, h2]
  exact this _ _ h3

/-- C107: with a locale that is set before the first message is logged and then kept, every format gives the lines that the program and the locale determine. -/
theorem C107_early_partial {E : Env} {f : DetailsFn} {pre post : List LocaleLabel} {s : LocaleState} (h : localeRun E f .start (pre ++ post) = some s)
    (h1 : ∀ m, LocaleLabel.log m ∉ pre) (h2 : ∀ p, LocaleLabel.setLocale p ∉ post) :
    s.written ++ s.queue.map (fun m => (toString (E.inLocale (inForce pre)) m f).1) = (loggedIn post).map fun m => (toString (E.inLocale (inForce pre)) m f).1 := by
  obtain ⟨e1, e2, e3⟩ := C107_when h
  have hlog : loggedIn (pre ++ post) = loggedIn post := by
    unfold loggedIn
    rw [List.filterMap_append, List.filterMap_eq_nil_iff.2, List.nil_append]
    intro l hl
    cases l with
    | log m => exact absurd hl (h1 m)
    | _ => rfl
  have hpre : localesOfWrites pre = [] := by
    obtain ⟨u, hu⟩ : ∃ u, localeRun E f .start pre = some u := by
      clear h1 h2 e1 e2 e3 hlog
      revert h
      generalize LocaleState.start = t
      induction pre generalizing t with
      | nil => intro _; exact ⟨_, rfl⟩
      | cons l pre ih =>
        intro h
        obtain ⟨v, hv, h⟩ := Option.bind_eq_some_iff.1 h
        obtain ⟨u, hu⟩ := ih v h
        exact ⟨u, by rw [localeRun, hv]; exact hu⟩
    have := (C107_when hu).2.2
    have hz : loggedIn pre = [] := by
      unfold loggedIn
      rw [List.filterMap_eq_nil_iff]
      intro l hl
      cases l with
      | log m => exact absurd hl (h1 m)
      | _ => rfl
    rw [hz] at this
    exact List.length_eq_zero_iff.1 (Nat.le_zero.1 this)
  have hforce : ∀ n (post : List LocaleLabel), post.length = n → (∀ p, LocaleLabel.setLocale p ∉ post) → inForce (pre ++ post) = inForce pre ∧ ∀ p ∈ localesOfWrites (pre ++ post), p = inForce pre := by
    intro n
    induction n with
    | zero => intro post hn _; cases List.length_eq_zero_iff.1 hn; rw [List.append_nil, hpre]; exact ⟨rfl, by simp⟩
    | succ n ih =>
      intro post hn h2
      rcases List.eq_nil_or_concat post with rfl | ⟨post, l, rfl⟩
      · cases hn
      rw [List.concat_eq_append] at hn h2 ⊢
      obtain ⟨i1, i2⟩ := ih post (by simpa using hn) (fun p hp => h2 p (List.mem_append_left _ hp))
      rw [← List.append_assoc, inForce_snoc, writes_snoc]
      cases l with
      | setLocale p => exact absurd (List.mem_append_right _ List.mem_cons_self) (h2 p)
      | log m => simp only [List.append_nil]; exact ⟨i1, i2⟩
      | write =>
        refine ⟨i1, fun p hp => ?_⟩
        rcases List.mem_append.1 hp with hp | hp
        · exact i2 p hp
        · rw [List.mem_singleton.1 hp, i1]
  have all := (hforce _ post rfl h2).2
  rw [e1, e2, hlog]
  rw [hlog] at e3
  generalize localesOfWrites (pre ++ post) = ps at all e3
  generalize loggedIn post = ms at e3
  generalize inForce pre = q at all
  clear e1 e2 h h1 h2 hlog hpre hforce
  induction ps generalizing ms with
  | nil => rfl
  | cons p ps ih =>
    cases ms with
    | nil => cases e3
    | cons m ms =>
      simp only [List.zipWith_cons_cons, List.length_cons, List.drop_succ_cons, List.map_cons, List.cons_append]
      rw [ih ms (by simpa using e3) (fun p hp => all p (List.mem_cons_of_mem _ hp)), all p List.mem_cons_self]

/-! ### Where it fails -/

/-- A locale as in English texts. -/
def english : NumPunct := ⟨',', [3, 3]⟩

/-- A time stamp, thread ids as numbers, no formats of the user. -/
def plainEnv : Env := ⟨fun _ => "2026".toList, decNat, fun _ _ => []⟩

/-- A message of thread 12345. -/
def greeting : LogMessage := { (LogMessage.new false 0 12345 "a.cpp".toList 7 "main".toList INFO) with message := "hello".toList }

theorem long_number : ¬ Short english 12345 := fun h => absurd (h 3 rfl) (by decide)

/-- The program of a schedule: everything but what the sink does. -/
theorem programPart_iff (ls : List LocaleLabel) (l : LocaleLabel) : l ∈ programPart ls ↔ l ∈ ls ∧ l ≠ .write := by
  unfold programPart
  rw [List.mem_filter]
  cases l <;> simp

/-- C107 is false for the full format: the same program, which sets a locale after its message, leaves different lines, depending on which thread is faster. -/
theorem C107_negation : ∃ (a b : List LocaleLabel) (s t : LocaleState), programPart a = programPart b ∧ localeRun plainEnv .full .start a = some s ∧
    localeRun plainEnv .full .start b = some t ∧ s.queue = [] ∧ t.queue = [] ∧ s.written ≠ t.written := by
  refine ⟨[.log greeting, .write, .setLocale english], [.log greeting, .setLocale english, .write], _, _, rfl, rfl, rfl, rfl, rfl, ?_⟩
  intro e
  have e : [(toString (plainEnv.inLocale .classic) greeting .full).1] = [(toString (plainEnv.inLocale english) greeting .full).1] := e
  injection e with e _
  have := (C107_full plainEnv .classic english greeting).1 e ⟨by decide, by decide⟩
  rw [show greeting.threadId = 12345 from rfl, C107_classic] at this
  exact long_number ((C107_same _ _).1 this.symm)

/-- C107 is false for the report of a fatal signal: the process id is punctuated. -/
theorem C107_negation_pid : signalTextIn english 11 12345 0 1 ≠ signalText 11 12345 0 1 :=
  fun e => long_number ((C107_signal _ _ _ _ _).1 e 12345 (by simp))

/-! ### Concrete cases -/

example : putNat english 1234567 = "1,234,567".toList := by simp [putNat, english, decNat, digit, groupRev, charMax]

/-- `C107_full`, `C107_default_file_partial`, `C107_when`. -/
example : ∃ s, localeRun plainEnv .full .start [.log greeting, .setLocale english, .write] = some s ∧ s.queue = [] ∧ s.written.length = 1 := ⟨_, rfl, rfl, rfl⟩

/-- `C107_early_partial`. -/
example : ∃ s, localeRun plainEnv .full .start ([.setLocale english] ++ [.log greeting, .write, .log greeting]) = some s ∧ s.written.length = 1 ∧ s.queue = [greeting] := ⟨_, rfl, rfl, rfl⟩

/-- `C107_signal`, `C107_dump`: small numbers are short. -/
example : (∀ i ∈ [(11 : Int), 999, 0, -6], Short english i.natAbs) ∧ ∀ n, n < 100 → Short english n := by
  have : ∀ n, n < 1000 → Short english n := by
    intro n hn g hg
    cases hg
    exact hn
  refine ⟨?_, fun n hn => this n (by omega)⟩
  intro i hi
  simp only [List.mem_cons, List.not_mem_nil, or_false] at hi
  rcases hi with rfl | rfl | rfl | rfl <;> exact this _ (by decide)

/-- `C107_time`: the format of the time stamps. -/
example : numericOnly "%Y/%m/%d %H:%M:%S 123456".toList = true := by decide

end G3.Props
