import Verif.Spec.Nested
import Verif.Model.Statement
import Mathlib.Data.List.Induction
/-
C127: functions that log may be called inside logging statements.
-/
namespace G3.Props
open G3 G3.Spec

variable {F : Type}

/-- One thread: the statements it is in, what it has logged, whether it has ended. -/
abbrev NestOne (F : Type) := List (Level × List (NPiece F)) × List (Level × Str) × Bool

/-- One step of a thread. -/
def oneStep (f0 : F) : NestOne F → NestEv F → Option (NestOne F)
  | (_, _, true), _ => none
  | (st, ms, false), .open l => some ((l, []) :: st, ms, false)
  | ([], _, false), .insert _ => none
  | ((l, ps) :: st, ms, false), .insert p => some ((l, ps ++ [p]) :: st, ms, false)
  | ([], _, false), .close => none
  | ((l, ps) :: st, ms, false), .close => some (st, ms ++ [messageOf f0 l ps], decide (1000 ≤ l.value))

/-- A history of a thread. -/
def oneRun (f0 : F) (c : NestOne F) : List (NestEv F) → Option (NestOne F)
  | [] => some c
  | e :: r => (oneStep f0 c e).bind fun c' => oneRun f0 c' r

theorem oneRun_append (f0 : F) (c : NestOne F) (l1 l2 : List (NestEv F)) :
    oneRun f0 c (l1 ++ l2) = (oneRun f0 c l1).bind fun c' => oneRun f0 c' l2 := by
  induction l1 generalizing c with
  | nil => rfl
  | cons e r ih =>
    rw [List.cons_append, oneRun, oneRun]
    cases oneStep f0 c e with
    | none => rfl
    | some c' => simpa using ih c'

/-- A complete piece of program adds its insertions to the statement around it. -/
theorem inside_run {f0 : F} {ls : List (NestEv F)} {ps : List (NPiece F)} {ms : List (Level × Str)} (h : Inside f0 ls ps ms) :
    (∀ l qs st ms0, oneRun f0 ((l, qs) :: st, ms0, false) ls = some ((l, qs ++ ps) :: st, ms0 ++ ms, false)) ∧
    (ps = [] → ∀ st ms0, oneRun f0 (st, ms0, false) ls = some (st, ms0 ++ ms, false)) := by
  induction h with
  | nothing => exact ⟨fun l qs st ms0 => by simp [oneRun], fun _ st ms0 => by simp [oneRun]⟩
  | insertion p h ih =>
    refine ⟨fun l qs st ms0 => ?_, fun he => by simp at he⟩
    rw [oneRun_append, ih.1]
    simp [oneRun, oneStep]
  | statement l hl h hi ih ihi =>
    have hd : decide (1000 ≤ l.value) = false := by simp; omega
    refine ⟨fun l' qs' st ms0 => ?_, fun he st ms0 => ?_⟩
    · rw [List.append_assoc, oneRun_append, ih.1, Option.bind_some, List.cons_append, oneRun, oneStep, Option.bind_some, oneRun_append, ihi.1]
      simp [oneRun, oneStep, hd]
    · rw [List.append_assoc, oneRun_append, ih.2 he, Option.bind_some, List.cons_append, oneRun, oneStep, Option.bind_some, oneRun_append, ihi.1]
      simp [oneRun, oneStep, hd]

theorem running_run {f0 : F} {ls : List (NestEv F)} {st : List (Level × List (NPiece F))} {ms : List (Level × Str)} (h : Running f0 ls st ms) :
    oneRun f0 ([], [], false) ls = some (st, ms, false) := by
  induction h with
  | outside h => simpa using (inside_run h).2 rfl [] []
  | within l h hi ih =>
    rw [oneRun_append, ih, Option.bind_some, oneRun, oneStep, Option.bind_some, (inside_run hi).1]
    simp

theorem nest_ended_run {f0 : F} {ls : List (NestEv F)} {st : List (Level × List (NPiece F))} {ms : List (Level × Str)} (h : Ended f0 ls st ms) :
    oneRun f0 ([], [], false) ls = some (st, ms, true) := by
  obtain ⟨ls0, l, ps, ms0, hl, hr, rfl, rfl⟩ := h
  rw [oneRun_append, running_run hr]
  simp [oneRun, oneStep, hl]

/-- The end of a statement that is not fatal. -/
theorem running_close {f0 : F} {ls : List (NestEv F)} {l : Level} {ps : List (NPiece F)} {st : List (Level × List (NPiece F))} {ms : List (Level × Str)}
    (h : Running f0 ls ((l, ps) :: st) ms) (hl : l.value < 1000) : Running f0 (ls ++ [.close]) st (ms ++ [messageOf f0 l ps]) := by
  cases h with
  | within _ h hi =>
    rename_i ls1 ms1 is ns
    cases h with
    | outside h =>
      refine .outside ?_
      have := Inside.statement l hl h hi
      simpa using this
    | within l' h' hi' =>
      have := Running.within l' h' (Inside.statement l hl hi' hi)
      simpa using this

theorem one_running {f0 : F} {ls : List (NestEv F)} {c : NestOne F} (h : oneRun f0 ([], [], false) ls = some c) :
    if c.2.2 then Ended f0 ls c.1 c.2.1 else Running f0 ls c.1 c.2.1 := by
  induction ls using List.reverseRecOn generalizing c with
  | nil => simp only [oneRun, Option.some.injEq] at h; subst h; exact .outside .nothing
  | append_singleton ls e ih =>
    rw [oneRun_append] at h
    rcases hc : oneRun f0 ([], [], false) ls with _ | ⟨st, ms, g⟩
    · simp [hc] at h
    · rw [hc, Option.bind_some, oneRun] at h
      have ih := ih hc
      cases g with
      | true => simp [oneStep] at h
      | false =>
        simp only [Bool.false_eq_true, if_false] at ih
        cases e with
        | «open» l =>
          simp only [oneStep, Option.bind_some, oneRun, Option.some.injEq] at h
          subst h
          simpa using Running.within l ih .nothing
        | insert p =>
          rcases st with _ | ⟨⟨l, ps⟩, st⟩
          · simp [oneStep] at h
          · simp only [oneStep, Option.bind_some, oneRun, Option.some.injEq] at h
            subst h
            cases ih with
            | within _ h hi => simpa using Running.within l h (Inside.insertion p hi)
        | close =>
          rcases st with _ | ⟨⟨l, ps⟩, st⟩
          · simp [oneStep] at h
          · simp only [oneStep, Option.bind_some, oneRun, Option.some.injEq] at h
            subst h
            by_cases hl : 1000 ≤ l.value
            · simp only [hl, decide_true, if_true]
              exact ⟨ls, l, ps, ms, hl, ih, rfl, rfl⟩
            · simp only [hl, decide_false, Bool.false_eq_true, if_false]
              exact running_close ih (by omega)

/-- The capture of a statement with these insertions. -/
def frameOf (f0 : F) (x : Level × List (NPiece F)) : NFrame F := x.2.foldl NFrame.put (NFrame.new f0 x.1)

theorem nest_put_failed (ps : List (NPiece F)) (f : NFrame F) (h : f.failed = true) : ps.foldl NFrame.put f = f := by
  induction ps with
  | nil => rfl
  | cons p ps ih => rw [List.foldl_cons, NFrame.put, if_pos h]; exact ih

theorem fold_text (ps : List (NPiece F)) (f : NFrame F) (h : f.failed = false) :
    (ps.foldl NFrame.put f).text = f.text ++ inserted f.fmt ps ∧ (ps.foldl NFrame.put f).level = f.level := by
  induction ps generalizing f with
  | nil => simp [inserted]
  | cons p ps ih =>
    rw [List.foldl_cons, NFrame.put, if_neg (by simp [h]), inserted]
    by_cases hp : (p f.fmt).2.2 = true
    · rw [nest_put_failed ps _ hp]
      simp [hp]
    · have := ih { f with text := f.text ++ (p f.fmt).1, fmt := (p f.fmt).2.1, failed := (p f.fmt).2.2 } (by simpa using hp)
      refine ⟨?_, this.2⟩
      rw [this.1]
      simp only [hp, Bool.false_eq_true, if_false, List.append_assoc]

theorem frameOf_message (f0 : F) (x : Level × List (NPiece F)) :
    ((frameOf f0 x).level, cstr (frameOf f0 x).text) = messageOf f0 x.1 x.2 := by
  obtain ⟨h1, h2⟩ := fold_text x.2 (NFrame.new f0 x.1) rfl
  rw [frameOf, h1, h2]
  rfl

/-- The state of the program as seen by thread `t`. -/
def NestRel (f0 : F) (s : NState F) (t : Nat) (c : NestOne F) : Prop :=
  s.stack t = c.1.map (frameOf f0) ∧ nestLogged t s.out = c.2.1 ∧ s.gone t = c.2.2

/-- What thread `t` does in a step. -/
def evOf (t : Nat) (x : NLabel F) : List (NestEv F) := nestEvents t [x]

theorem nestEvents_cons (t : Nat) (x : NLabel F) (r : List (NLabel F)) : nestEvents t (x :: r) = evOf t x ++ nestEvents t r := by
  cases x <;> simp only [evOf, nestEvents] <;> split <;> simp

/-- The thread of a step. -/
def thrOf : NLabel F → Nat
  | .enter t _ => t
  | .put t _ => t
  | .leave t => t

theorem nestLoggedBy_snoc (t : Nat) (out : List NMsg) (m : NMsg) :
    nestLogged t (out ++ [m]) = nestLogged t out ++ if m.thr = t then [(m.level, m.text)] else [] := by
  by_cases h : m.thr = t <;> simp [nestLogged, List.filter_append, h]

theorem wasFatal_eq (l : Level) : wasFatal l = decide (1000 ≤ l.value) := rfl

/-- A step of the program is a step of its thread and of no other. -/
theorem nStep_sim {f0 : F} {s : NState F} {x : NLabel F} {c : Nat → NestOne F} (h : ∀ t, NestRel f0 s t (c t)) :
    (∀ s', nStep f0 s x = some s' → ∀ t, ∃ c', oneRun f0 (c t) (evOf t x) = some c' ∧ NestRel f0 s' t c') ∧
    ((∃ c', oneRun f0 (c (thrOf x)) (evOf (thrOf x) x) = some c') → ∃ s', nStep f0 s x = some s') := by
  have hme := h (thrOf x)
  rcases hc : c (thrOf x) with ⟨st, ms, g⟩
  rw [hc] at hme
  obtain ⟨h1, h2, h3⟩ := hme
  simp only at h1 h2 h3
  have hother : ∀ t, t ≠ thrOf x → evOf t x = [] := by
    intro t ht
    cases x <;> simp only [thrOf] at ht <;> simp [evOf, nestEvents, Ne.symm ht]
  have hself : ∀ s' c', nStep f0 s x = some s' → NestRel f0 s' (thrOf x) c' → oneRun f0 (c (thrOf x)) (evOf (thrOf x) x) = some c' →
      (∀ t, t ≠ thrOf x → s'.stack t = s.stack t ∧ s'.gone t = s.gone t ∧ nestLogged t s'.out = nestLogged t s.out) →
      ∀ t, ∃ c', oneRun f0 (c t) (evOf t x) = some c' ∧ NestRel f0 s' t c' := by
    intro s' c' _ hr ho hf t
    by_cases ht : t = thrOf x
    · subst ht; exact ⟨c', ho, hr⟩
    · obtain ⟨e1, e2, e3⟩ := hf t ht
      refine ⟨c t, by rw [hother t ht]; rfl, ?_⟩
      have := h t
      exact ⟨by rw [e1]; exact this.1, by rw [e3]; exact this.2.1, by rw [e2]; exact this.2.2⟩
  cases x with
  | enter t l =>
    simp only [thrOf] at *
    cases g with
    | true => exact ⟨fun s' hs => by simp [nStep, h3] at hs, fun ⟨c', hc'⟩ => by simp [hc, evOf, nestEvents, oneRun, oneStep] at hc'⟩
    | false =>
      refine ⟨fun s' hs => hself s' ((l, []) :: st, ms, false) hs ?_ (by simp [hc, evOf, nestEvents, oneRun, oneStep]) ?_, fun _ => ⟨_, by rw [nStep, h3, if_neg (by simp)]⟩⟩
      · simp only [nStep, h3, Bool.false_eq_true, if_false, Option.some.injEq] at hs
        subst hs
        exact ⟨by simp [h1, frameOf], h2, h3⟩
      · intro u hu
        simp only [nStep, h3, Bool.false_eq_true, if_false, Option.some.injEq] at hs
        subst hs
        exact ⟨by simp [Function.update_of_ne hu], rfl, rfl⟩
  | put t p =>
    simp only [thrOf] at *
    cases g with
    | true => exact ⟨fun s' hs => by simp [nStep, h3] at hs, fun ⟨c', hc'⟩ => by simp [hc, evOf, nestEvents, oneRun, oneStep] at hc'⟩
    | false =>
      rcases st with _ | ⟨⟨l, ps⟩, st⟩
      · exact ⟨fun s' hs => by simp [nStep, h3, h1] at hs, fun ⟨c', hc'⟩ => by simp [hc, evOf, nestEvents, oneRun, oneStep] at hc'⟩
      · refine ⟨fun s' hs => hself s' ((l, ps ++ [p]) :: st, ms, false) hs ?_ (by simp [hc, evOf, nestEvents, oneRun, oneStep]) ?_, fun _ => by simp [nStep, h3, h1]⟩
        · simp only [nStep, h3, Bool.false_eq_true, if_false, h1, List.map_cons, Option.some.injEq] at hs
          subst hs
          exact ⟨by simp [frameOf, List.foldl_append], h2, h3⟩
        · intro u hu
          simp only [nStep, h3, Bool.false_eq_true, if_false, h1, List.map_cons, Option.some.injEq] at hs
          subst hs
          exact ⟨by simp [Function.update_of_ne hu], rfl, rfl⟩
  | leave t =>
    simp only [thrOf] at *
    cases g with
    | true => exact ⟨fun s' hs => by simp [nStep, h3] at hs, fun ⟨c', hc'⟩ => by simp [hc, evOf, nestEvents, oneRun, oneStep] at hc'⟩
    | false =>
      rcases st with _ | ⟨⟨l, ps⟩, st⟩
      · exact ⟨fun s' hs => by simp [nStep, h3, h1] at hs, fun ⟨c', hc'⟩ => by simp [hc, evOf, nestEvents, oneRun, oneStep] at hc'⟩
      · have hm := frameOf_message f0 (l, ps)
        have hlv : (frameOf f0 (l, ps)).level = l := congrArg Prod.fst hm
        refine ⟨fun s' hs => hself s' (st, ms ++ [messageOf f0 l ps], decide (1000 ≤ l.value)) hs ?_ (by simp [hc, evOf, nestEvents, oneRun, oneStep]) ?_, fun _ => by simp [nStep, h3, h1]⟩
        · simp only [nStep, h3, Bool.false_eq_true, if_false, h1, List.map_cons, Option.some.injEq] at hs
          subst hs
          refine ⟨by simp, ?_, by simp [wasFatal_eq, hlv]⟩
          simp only [nestLoggedBy_snoc, if_true, h2]
          rw [hm]
        · intro u hu
          simp only [nStep, h3, Bool.false_eq_true, if_false, h1, List.map_cons, Option.some.injEq] at hs
          subst hs
          exact ⟨by simp [Function.update_of_ne hu], by simp [Function.update_of_ne hu], by simp [nestLoggedBy_snoc, Ne.symm hu]⟩

theorem nRun_sim {f0 : F} {ls : List (NLabel F)} {s : NState F} {c : Nat → NestOne F} (h : ∀ t, NestRel f0 s t (c t)) :
    (∀ s', nRun f0 s ls = some s' → ∀ t, ∃ c', oneRun f0 (c t) (nestEvents t ls) = some c' ∧ NestRel f0 s' t c') ∧
    ((∀ t, ∃ c', oneRun f0 (c t) (nestEvents t ls) = some c') → ∃ s', nRun f0 s ls = some s') := by
  induction ls generalizing s c with
  | nil => exact ⟨fun s' hs t => by simp only [nRun, Option.some.injEq] at hs; subst hs; exact ⟨c t, rfl, h t⟩, fun _ => ⟨s, rfl⟩⟩
  | cons x r ih =>
    obtain ⟨hf, hb⟩ := nStep_sim (x := x) h
    constructor
    · intro s' hs t
      rw [nRun] at hs
      rcases hx : nStep f0 s x with _ | s1
      · simp [hx] at hs
      · rw [hx, Option.bind_some] at hs
        have hf := hf s1 hx
        choose c1 hc1 hr1 using hf
        obtain ⟨c', hc', hr⟩ := (ih hr1).1 s' hs t
        exact ⟨c', by rw [nestEvents_cons, oneRun_append, hc1 t]; exact hc', hr⟩
    · intro hall
      have hsplit : ∀ t, ∃ c1, oneRun f0 (c t) (evOf t x) = some c1 := by
        intro t
        obtain ⟨c', hc'⟩ := hall t
        rw [nestEvents_cons, oneRun_append] at hc'
        rcases h1 : oneRun f0 (c t) (evOf t x) with _ | c1
        · simp [h1] at hc'
        · exact ⟨c1, rfl⟩
      obtain ⟨s1, hs1⟩ := hb (hsplit _)
      have hf := hf s1 hs1
      choose c1 hc1 hr1 using hf
      obtain ⟨s', hs'⟩ := (ih hr1).2 (by
        intro t
        obtain ⟨c', hc'⟩ := hall t
        rw [nestEvents_cons, oneRun_append, hc1 t] at hc'
        exact ⟨c', hc'⟩)
      exact ⟨s', by rw [nRun, hs1]; exact hs'⟩

theorem nestRel_start (f0 : F) (t : Nat) : NestRel f0 nStart t ([], [], false) := ⟨rfl, rfl, rfl⟩

/-- C127, exactly. In every history each thread has logged exactly what its own actions say, whatever the other threads do: each statement one message, after those of the statements inside it, with the insertions made into it and none of those
made into statements inside or around it. If it has ended a fatal statement, that was the last it did. -/
theorem C127_exact (f0 : F) (ls : List (NLabel F)) (s : NState F) (h : nRun f0 nStart ls = some s) (t : Nat) :
    ∃ st, if s.gone t then Ended f0 (nestEvents t ls) st (nestLogged t s.out) else Running f0 (nestEvents t ls) st (nestLogged t s.out) := by
  obtain ⟨c, hc, h1, h2, h3⟩ := (nRun_sim (nestRel_start f0)).1 s h t
  have := one_running hc
  exact ⟨c.1, by rw [h2, h3]; exact this⟩

/-- Which histories there are: nothing but the order of its own statements restricts a thread. -/
theorem C127_possible (f0 : F) (ls : List (NLabel F)) :
    (∃ s, nRun f0 nStart ls = some s) ↔ ∀ t, ∃ st ms, Running f0 (nestEvents t ls) st ms ∨ Ended f0 (nestEvents t ls) st ms := by
  constructor
  · rintro ⟨s, h⟩ t
    obtain ⟨st, hst⟩ := C127_exact f0 ls s h t
    split at hst
    · exact ⟨st, _, .inr hst⟩
    · exact ⟨st, _, .inl hst⟩
  · intro h
    refine (nRun_sim (nestRel_start f0)).2 fun t => ?_
    obtain ⟨st, ms, hr | he⟩ := h t
    · exact ⟨_, running_run hr⟩
    · exact ⟨_, nest_ended_run he⟩

/-- The statement: a thread whose statements are all complete and not fatal has logged their messages, inner ones first. -/
theorem C127_statement (f0 : F) (ls : List (NLabel F)) (s : NState F) (h : nRun f0 nStart ls = some s) (t : Nat) (ms : List (Level × Str))
    (hc : Inside f0 (nestEvents t ls) [] ms) : nestLogged t s.out = ms ∧ s.gone t = false ∧ s.stack t = [] := by
  obtain ⟨c, hr, h1, h2, h3⟩ := (nRun_sim (nestRel_start f0)).1 s h t
  have := running_run (.outside hc)
  rw [this, Option.some.injEq] at hr
  subst hr
  exact ⟨h2, h3, h1⟩

/-- What a thread logs depends on nothing but what it does itself. -/
theorem C127_independent (f0 : F) (ls ls' : List (NLabel F)) (s s' : NState F) (h : nRun f0 nStart ls = some s) (h' : nRun f0 nStart ls' = some s')
    (t : Nat) (he : nestEvents t ls = nestEvents t ls') : nestLogged t s.out = nestLogged t s'.out := by
  obtain ⟨c, hc, _, h2, _⟩ := (nRun_sim (nestRel_start f0)).1 s h t
  obtain ⟨c', hc', _, h2', _⟩ := (nRun_sim (nestRel_start f0)).1 s' h' t
  rw [he, hc', Option.some.injEq] at hc
  subst hc
  rw [h2, h2']

theorem nRun_append (f0 : F) (s : NState F) (l1 l2 : List (NLabel F)) :
    nRun f0 s (l1 ++ l2) = (nRun f0 s l1).bind fun s' => nRun f0 s' l2 := by
  induction l1 generalizing s with
  | nil => rfl
  | cons x r ih =>
    rw [List.cons_append, nRun, nRun]
    cases nStep f0 s x with
    | none => rfl
    | some s' => simpa using ih s'

/-- A fatal statement inside others: its message is the last of its thread, and the statements around it are never logged. -/
theorem C127_fatal (f0 : F) (l1 l2 : List (NLabel F)) (s s' : NState F) (t : Nat) (l : Level) (ps : List (NPiece F)) (st : List (Level × List (NPiece F)))
    (ms : List (Level × Str)) (h : nRun f0 nStart (l1 ++ [.leave t]) = some s) (h' : nRun f0 s l2 = some s')
    (hr : Running f0 (nestEvents t l1) ((l, ps) :: st) ms) (hl : 1000 ≤ l.value) :
    nestLogged t s'.out = ms ++ [messageOf f0 l ps] ∧ nestEvents t l2 = [] := by
  have hall : nRun f0 nStart (l1 ++ [.leave t] ++ l2) = some s' := by rw [nRun_append, h]; exact h'
  obtain ⟨c, hc, _, h2, _⟩ := (nRun_sim (nestRel_start f0)).1 s' hall t
  have hev : ∀ a b : List (NLabel F), nestEvents t (a ++ b) = nestEvents t a ++ nestEvents t b := by
    intro a b
    induction a with
    | nil => rfl
    | cons x r ih => rw [List.cons_append, nestEvents_cons, nestEvents_cons, ih, List.append_assoc]
  rw [hev, hev, oneRun_append] at hc
  have he : oneRun f0 ([], [], false) (nestEvents t l1 ++ nestEvents t [.leave t]) = some (st, ms ++ [messageOf f0 l ps], true) :=
    nest_ended_run ⟨_, l, ps, ms, hl, hr, by simp [nestEvents], rfl⟩
  rw [he, Option.bind_some] at hc
  cases hq : nestEvents t l2 with
  | nil =>
    rw [hq] at hc
    simp only [oneRun, Option.some.injEq] at hc
    subst hc
    exact ⟨h2, rfl⟩
  | cons e r => rw [hq] at hc; simp [oneRun, oneStep] at hc

/-- Each statement logs once, when it ends: there are as many messages as ended statements. -/
theorem C127_once (f0 : F) (ls : List (NLabel F)) (s : NState F) (h : nRun f0 nStart ls = some s) :
    s.out.map (·.thr) = ls.filterMap (fun x => match x with | .leave t => some t | _ => none) := by
  have key : ∀ (ls : List (NLabel F)) (s0 s : NState F), nRun f0 s0 ls = some s →
      s.out.map (·.thr) = s0.out.map (·.thr) ++ ls.filterMap (fun x => match x with | .leave t => some t | _ => none) := by
    intro ls
    induction ls with
    | nil => intro s0 s h; simp only [nRun, Option.some.injEq] at h; subst h; simp
    | cons x r ih =>
      intro s0 s h
      rw [nRun] at h
      rcases hx : nStep f0 s0 x with _ | s1
      · simp [hx] at h
      · rw [hx, Option.bind_some] at h
        rw [ih s1 s h]
        cases x with
        | enter t l =>
          simp only [nStep] at hx
          split at hx
          · simp at hx
          · simp only [Option.some.injEq] at hx; subst hx; simp
        | put t p =>
          simp only [nStep] at hx
          split at hx
          · simp at hx
          · split at hx
            · simp at hx
            · simp only [Option.some.injEq] at hx; subst hx; simp
        | leave t =>
          simp only [nStep] at hx
          split at hx
          · simp at hx
          · split at hx
            · simp at hx
            · simp only [Option.some.injEq] at hx; subst hx; simp
  have := key ls nStart s h
  rw [show (nStart : NState F).out = [] from rfl, List.map_nil, List.nil_append] at this
  exact this

/-- The stream of a capture is that of Model/Statement, with a format state. -/
theorem C127_same {E : Type} (ps : List (Piece E)) (l : Level) :
    let f := ps.foldl (fun (f : NFrame Unit) p => f.put (fun _ => (p.text, (), p.spoils))) (NFrame.new () l)
    (⟨f.text, f.failed⟩ : CStream) = ps.foldl CStream.put ⟨[], false⟩ := by
  have key : ∀ (ps : List (Piece E)) (f : NFrame Unit),
      (⟨(ps.foldl (fun (f : NFrame Unit) p => f.put (fun _ => (p.text, (), p.spoils))) f).text,
        (ps.foldl (fun (f : NFrame Unit) p => f.put (fun _ => (p.text, (), p.spoils))) f).failed⟩ : CStream) = ps.foldl CStream.put ⟨f.text, f.failed⟩ := by
    intro ps
    induction ps with
    | nil => intro f; rfl
    | cons p ps ih =>
      intro f
      rw [List.foldl_cons, ih, List.foldl_cons]
      congr 1
      unfold NFrame.put CStream.put
      cases hf : f.failed <;> simp [hf]
  exact key ps _

/-! Examples -/

/-- `LOG(WARNING) << std::hex << f() << n` where f logs a number itself and returns 10; the format state is whether the stream is in hexadecimal. -/
def exNested : List (NLabel Bool) :=
  [.enter 0 WARNING, .put 0 (fun _ => ([], true, false)), .enter 1 INFO, .enter 0 INFO, .put 0 (fun h => (if h then "a".toList else "10".toList, h, false)),
   .leave 0, .put 0 (fun h => (if h then "a".toList else "10".toList, h, false)), .leave 1, .leave 0]

example : ∃ s, nRun false nStart exNested = some s ∧ s.out = [⟨0, INFO, "10".toList⟩, ⟨1, INFO, []⟩, ⟨0, WARNING, "a".toList⟩] :=
  ⟨{ stack := _, gone := _, out := _ }, rfl, by decide⟩

/-- What thread 0 does in it is a complete piece of program, so that C127_statement applies. -/
example : Inside false (nestEvents 0 exNested) [] [(INFO, "10".toList), (WARNING, "a".toList)] := by
  have h1 : Inside (F := Bool) false [] [] [] := .nothing
  have h2 := h1.insertion (fun _ => ([], true, false))
  have h3 := h1.insertion (fun h => (if h then "a".toList else "10".toList, h, false))
  have h4 := (Inside.statement INFO (by decide) h2 h3).insertion (fun h => (if h then "a".toList else "10".toList, h, false))
  exact Inside.statement WARNING (by decide) h1 h4

/-- A failed CHECK inside the operand of a LOG: only the CHECK is logged. -/
example : ∃ s, nRun () nStart [.enter 0 INFO, .put 0 (fun _ => ("lost".toList, (), false)), .enter 0 CONTRACT, .leave 0] = some s ∧
    s.out = [⟨0, CONTRACT, []⟩] ∧ s.gone 0 = true := ⟨{ stack := _, gone := _, out := _ }, rfl, by decide, by decide⟩

end G3.Props
