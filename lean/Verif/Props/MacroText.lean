import Verif.Spec.MacroText
import Verif.Props.Capture
/-
C99: a logging statement is one statement.
-/
namespace G3.Props
open G3 G3.Spec

section
variable {C S : Type}

/-- C99: there is only one way to read a program. -/
theorem C99_unique {b : Bool} {ts : List (Tok C S)} {t t' : Tree C S} {r r' : List (Tok C S)} (h : Reads b ts t r) (h' : Reads b ts t' r') :
    t = t' ∧ r = r' := by
  induction h generalizing t' r' with
  | simple s r => cases h'; exact ⟨rfl, rfl⟩
  | block h ih =>
    cases h' with
    | block h' =>
      obtain ⟨rfl, e⟩ := ih h'
      cases e; exact ⟨rfl, rfl⟩
  | ite c h hn ih =>
    cases h' with
    | ite _ h' hn' => obtain ⟨rfl, rfl⟩ := ih h'; exact ⟨rfl, rfl⟩
    | itee _ h' he => obtain ⟨rfl, rfl⟩ := ih h'; exact absurd rfl hn
  | itee c h he ih ihe =>
    cases h' with
    | ite _ h' hn' => obtain ⟨rfl, rfl⟩ := ih h'; exact absurd rfl hn'
    | itee _ h' he' =>
      obtain ⟨rfl, e⟩ := ih h'
      cases e
      obtain ⟨rfl, rfl⟩ := ihe he'
      exact ⟨rfl, rfl⟩
  | loop c h ih => cases h' with | loop _ h' => obtain ⟨rfl, rfl⟩ := ih h'; exact ⟨rfl, rfl⟩
  | doWhile c h ih =>
    cases h' with
    | doWhile _ h' => obtain ⟨rfl, e⟩ := ih h'; cases e; exact ⟨rfl, rfl⟩
  | nil r hr =>
    cases h' with
    | nil => exact ⟨rfl, rfl⟩
    | cons h1 h2 => exfalso; cases h1 <;> simp at hr
  | cons h1 h2 ih1 ih2 =>
    cases h' with
    | nil _ hr => exfalso; cases h1 <;> simp at hr
    | cons h1' h2' =>
      obtain ⟨rfl, rfl⟩ := ih1 h1'
      obtain ⟨rfl, rfl⟩ := ih2 h2'
      exact ⟨rfl, rfl⟩

end

variable {L X W : Type}

/-- The inside of a logging statement. -/
def inside : MacroCall L X → Tree (CondText L X) (ExprText L X)
  | .log l x => .itee (.levelOff l) (.block .nil) (.simple (.stream (.level l) x))
  | .logIf l c x => .itee (.levelOffOr l c) (.block .nil) (.simple (.stream (.level l) x))
  | .check c x => .itee (.isTrue c) (.block .nil) (.simple (.stream (.contract c) x))
  | .logF l x => .itee (.levelOff l) (.block .nil) (.simple (.capturef (.level l) x))
  | .logIfF l c x => .itee (.levelOffOr l c) (.block .nil) (.simple (.capturef (.level l) x))
  | .checkF c x => .itee (.isTrue c) (.block .nil) (.simple (.capturef (.contract c) x))
  | .check_F c x => .itee (.isTrue c) (.block .nil) (.simple (.capturef (.contract c) x))

/-- The tree of the program as written, with the inside of the logging statements in their places. -/
def withInside : Tree X (X ⊕ MacroCall L X) → Tree (CondText L X) (ExprText L X)
  | .simple (.inl x) => .simple (.user x)
  | .simple (.inr m) => inside m
  | .block b => .block (withInside b)
  | .ite c t => .ite (.user c) (withInside t)
  | .itee c t e => .itee (.user c) (withInside t) (withInside e)
  | .loop c t => .loop (.user c) (withInside t)
  | .doWhile t c => .doWhile (withInside t) (.user c)
  | .nil => .nil
  | .cons t b => .cons (withInside t) (withInside b)

theorem reads_inside (m : MacroCall L X) (r : List (OutTok L X)) : Reads false (m.expand ++ r) (inside m) r := by
  cases m <;> exact .itee _ (.block (.nil _ (.inr rfl))) (.simple _ _)

theorem preprocess_cons (t : SrcTok L X) (ts : List (SrcTok L X)) : preprocess (t :: ts) = t.expand ++ preprocess ts := List.flatMap_cons

theorem preprocess_head (ts : List (SrcTok L X)) :
    ((preprocess ts).head? = some .else_ ↔ ts.head? = some .else_) ∧ ((preprocess ts).head? = some .rb ↔ ts.head? = some .rb) ∧
      (preprocess ts = [] ↔ ts = []) := by
  cases ts with
  | nil => simp [preprocess]
  | cons t ts =>
    rw [preprocess_cons]
    cases t with
    | simple x =>
      cases x with
      | inl x => simp [SrcTok.expand]
      | inr m => cases m <;> simp [SrcTok.expand, MacroCall.expand]
    | _ => simp [SrcTok.expand]

theorem reads_preprocess {b : Bool} {ts : List (SrcTok L X)} {t : Tree X (X ⊕ MacroCall L X)} {r : List (SrcTok L X)} (h : Reads b ts t r) :
    Reads b (preprocess ts) (withInside t) (preprocess r) := by
  induction h with
  | simple s r =>
    rw [preprocess_cons]
    cases s with
    | inl x => exact .simple _ _
    | inr m => exact reads_inside m _
  | block _ ih => exact .block ih
  | ite c _ hn ih => exact .ite _ ih (fun e => hn ((preprocess_head _).1.1 e))
  | itee c _ _ ih ihe => exact .itee _ ih ihe
  | loop c _ ih => exact .loop _ ih
  | doWhile c _ ih => exact .doWhile _ ih
  | nil r hr =>
    refine .nil _ ?_
    rcases hr with hr | hr
    · exact .inl ((preprocess_head _).2.2.2 hr)
    · exact .inr ((preprocess_head _).2.1.2 hr)
  | cons _ _ ih1 ih2 => exact .cons ih1 ih2

/-- What the inside of a logging statement does. -/
theorem exec_inside (μ : Meaning L X W) (m : MacroCall L X) (s s' : MState W) :
    Exec (CondText.eval μ) (ExprText.run μ) (inside m) s s' ↔ s' = MacroCall.does μ m s := by
  have key : ∀ (c : CondText L X) (x : ExprText L X), Exec (CondText.eval μ) (ExprText.run μ) (.itee c (.block .nil) (.simple x)) s s' ↔
      s' = if (c.eval μ s).1 = true then (c.eval μ s).2 else x.run μ (c.eval μ s).2 := by
    intro c x
    constructor
    · intro h
      cases h with
      | iteeT hc h => rw [if_pos hc]; cases h with | block h => cases h; rfl
      | iteeF hc h => rw [if_neg (by rw [hc]; simp)]; cases h; rfl
    · intro h
      by_cases hc : (c.eval μ s).1 = true
      · rw [if_pos hc] at h
        rw [h]; exact .iteeT hc (.block (.nil _))
      · rw [if_neg hc] at h
        rw [h]; exact .iteeF (by simpa using hc) (.simple _ _)
  have fin : ∀ {a b : MState W}, a = b → (s' = a ↔ s' = b) := by rintro a _ rfl; rfl
  cases m with
  | log l x | logF l x =>
    refine (key _ _).trans (fin ?_)
    simp only [CondText.eval, ExprText.run, CaptureCtor.eval, MacroCall.does]
    by_cases h : (testLevel (μ.level l s).1 (μ.level l s).2).1 = true
    · simp [h]
    · simp [h]
  | logIf l c x | logIfF l c x =>
    refine (key _ _).trans (fin ?_)
    simp only [CondText.eval, ExprText.run, CaptureCtor.eval, MacroCall.does]
    by_cases h1 : (testLevel (μ.level l s).1 (μ.level l s).2).1 = true
    · by_cases h : (μ.cond c (testLevel (μ.level l s).1 (μ.level l s).2).2).1 = 0
      · simp [h1, h]
      · simp [h1, h]
    · simp [h1]
  | check c x | checkF c x | check_F c x =>
    refine (key _ _).trans (fin ?_)
    simp only [CondText.eval, ExprText.run, CaptureCtor.eval, MacroCall.does, decide_eq_true_eq]

theorem exec_preprocess (μ : Meaning L X W) {t : Tree X (X ⊕ MacroCall L X)} {s s' : MState W} (h : Exec (srcTest μ) (srcAct μ) t s s') :
    Exec (CondText.eval μ) (ExprText.run μ) (withInside t) s s' := by
  induction h with
  | simple a s =>
    cases a with
    | inl x => exact .simple (ExprText.user x) s
    | inr m => exact (exec_inside μ m s _).2 rfl
  | block _ ih => exact .block ih
  | iteT hc _ ih => exact .iteT hc ih
  | @iteF c t s hc => exact .iteF (c := CondText.user c) (test := CondText.eval μ) hc
  | iteeT hc _ ih => exact .iteeT hc ih
  | iteeF hc _ ih => exact .iteeF hc ih
  | loopT hc _ _ ih1 ih2 => exact .loopT hc ih1 ih2
  | @loopF c t s hc => exact .loopF (c := CondText.user c) (test := CondText.eval μ) hc
  | doT _ hc _ ih1 ih2 => exact .doT ih1 hc ih2
  | @doF c t s s1 _ hc ih => exact .doF (c := CondText.user c) (test := CondText.eval μ) ih hc
  | nil s => exact .nil s
  | cons _ _ ih1 ih2 => exact .cons ih1 ih2

theorem inside_itee (m : MacroCall L X) : ∃ c x, inside m = .itee c (.block .nil) (.simple x) := by
  cases m <;> exact ⟨_, _, rfl⟩

theorem exec_source (μ : Meaning L X W) {t : Tree X (X ⊕ MacroCall L X)} {s s' : MState W}
    (h : Exec (CondText.eval μ) (ExprText.run μ) (withInside t) s s') : Exec (srcTest μ) (srcAct μ) t s s' := by
  have mac : ∀ (m : MacroCall L X) {s s' : MState W}, Exec (CondText.eval μ) (ExprText.run μ) (inside m) s s' →
      Exec (srcTest μ) (srcAct μ) (.simple (.inr m)) s s' := by
    intro m s s' h
    rw [(exec_inside μ m s s').1 h]
    exact .simple (Sum.inr m) s
  have notBlock : ∀ {m : MacroCall L X} {b}, inside m ≠ .block b := by
    intro m b e; obtain ⟨c, x, h⟩ := inside_itee m; rw [h] at e; cases e
  have notIte : ∀ {m : MacroCall L X} {c b}, inside m ≠ .ite c b := by
    intro m c b e; obtain ⟨c, x, h⟩ := inside_itee m; rw [h] at e; cases e
  have notLoop : ∀ {m : MacroCall L X} {c b}, inside m ≠ .loop c b := by
    intro m c b e; obtain ⟨c, x, h⟩ := inside_itee m; rw [h] at e; cases e
  have notDo : ∀ {m : MacroCall L X} {c b}, inside m ≠ .doWhile b c := by
    intro m c b e; obtain ⟨c, x, h⟩ := inside_itee m; rw [h] at e; cases e
  have notSimple : ∀ {m : MacroCall L X} {a}, inside m ≠ .simple a := by
    intro m a e; obtain ⟨c, x, h⟩ := inside_itee m; rw [h] at e; cases e
  have notNil : ∀ {m : MacroCall L X}, inside m ≠ .nil := by
    intro m e; obtain ⟨c, x, h⟩ := inside_itee m; rw [h] at e; cases e
  have notCons : ∀ {m : MacroCall L X} {a b}, inside m ≠ .cons a b := by
    intro m a b e; obtain ⟨c, x, h⟩ := inside_itee m; rw [h] at e; cases e
  generalize hu : withInside t = u at h
  induction h generalizing t with
  | simple a s =>
    match t, hu with
    | .simple (.inl x), rfl => exact .simple (Sum.inl x) s
    | .simple (.inr m), hu => exact absurd hu notSimple
  | block h ih =>
    match t, hu with
    | .block b, hu => cases hu; exact .block (ih rfl)
    | .simple (.inr m), hu => exact absurd hu notBlock
  | iteT hc h ih =>
    match t, hu with
    | .ite c b, hu => cases hu; exact .iteT hc (ih rfl)
    | .simple (.inr m), hu => exact absurd hu notIte
  | iteF hc =>
    match t, hu with
    | .ite c b, hu => cases hu; exact .iteF (test := srcTest μ) hc
    | .simple (.inr m), hu => exact absurd hu notIte
  | iteeT hc h ih =>
    match t, hu with
    | .itee c b e, hu => cases hu; exact .iteeT hc (ih rfl)
    | .simple (.inr m), hu => exact mac m (by rw [show inside m = _ from hu]; exact .iteeT hc h)
  | iteeF hc h ih =>
    match t, hu with
    | .itee c b e, hu => cases hu; exact .iteeF hc (ih rfl)
    | .simple (.inr m), hu => exact mac m (by rw [show inside m = _ from hu]; exact .iteeF hc h)
  | loopT hc h h2 ih ih2 =>
    match t, hu with
    | .loop c b, hu => cases hu; exact .loopT hc (ih rfl) (ih2 rfl)
    | .simple (.inr m), hu => exact absurd hu notLoop
  | loopF hc =>
    match t, hu with
    | .loop c b, hu => cases hu; exact .loopF (test := srcTest μ) hc
    | .simple (.inr m), hu => exact absurd hu notLoop
  | doT h hc h2 ih ih2 =>
    match t, hu with
    | .doWhile b c, hu => cases hu; exact .doT (ih rfl) hc (ih2 rfl)
    | .simple (.inr m), hu => exact absurd hu notDo
  | doF h hc ih =>
    match t, hu with
    | .doWhile b c, hu => cases hu; exact .doF (test := srcTest μ) (ih rfl) hc
    | .simple (.inr m), hu => exact absurd hu notDo
  | nil s =>
    match t, hu with
    | .nil, _ => exact .nil s
    | .simple (.inr m), hu => exact absurd hu notNil
  | cons h1 h2 ih1 ih2 =>
    match t, hu with
    | .cons a b, hu => cases hu; exact .cons (ih1 rfl) (ih2 rfl)
    | .simple (.inr m), hu => exact absurd hu notCons

/-- C99: a program in which logging statements stand anywhere a statement may stand - in an `if` with or without `else`, in loops, with or
without braces - is read by the compiler as it was written, every logging statement being one statement: every `else` stays with its `if`. -/
theorem C99_reading {ts : List (SrcTok L X)} {t : Tree X (X ⊕ MacroCall L X)} (h : Reads true ts t []) :
    Reads true (preprocess ts) (withInside t) [] ∧ ∀ t' r', Reads true (preprocess ts) t' r' → t' = withInside t ∧ r' = [] := by
  have h1 := reads_preprocess h
  exact ⟨h1, fun t' r' h' => C99_unique h' h1⟩

/-- C99: and the compiled program does exactly what the program as written does with every logging statement executed as one statement. -/
theorem C99_behaviour (μ : Meaning L X W) {ts : List (SrcTok L X)} {t : Tree X (X ⊕ MacroCall L X)} (h : Reads true ts t [])
    {t' : Tree (CondText L X) (ExprText L X)} (h' : Reads true (preprocess ts) t' []) (s s' : MState W) :
    Exec (CondText.eval μ) (ExprText.run μ) t' s s' ↔ Exec (srcTest μ) (srcAct μ) t s s' := by
  obtain ⟨rfl, _⟩ := (C99_reading h).2 t' _ h'
  exact ⟨exec_source μ, exec_preprocess μ⟩

theorem preprocess_nil {ts : List (SrcTok L X)} (h : preprocess ts = []) : ts = [] := (preprocess_head ts).2.2.1 h

/-- What a program begins with, seen from its first token after preprocessing. -/
theorem first_of {ts : List (SrcTok L X)} {o : OutTok L X} {r : List (OutTok L X)} (h : preprocess ts = o :: r) :
    (∃ x rest, ts = x :: rest ∧ x.expand = [o] ∧ r = preprocess rest) ∨
    ∃ m rest c x, ts = .simple (.inr m) :: rest ∧ o = .if_ c ∧ r = .lb :: .rb :: .else_ :: .simple x :: preprocess rest := by
  cases ts with
  | nil => cases h
  | cons t rest =>
    rw [preprocess_cons] at h
    cases t with
    | simple y =>
      cases y with
      | inl y => cases h; exact .inl ⟨_, rest, rfl, rfl, rfl⟩
      | inr m =>
        right
        refine ⟨m, rest, ?_⟩
        cases m <;> (cases h; exact ⟨_, _, rfl, rfl, rfl⟩)
    | _ => cases h; exact .inl ⟨_, rest, rfl, rfl, rfl⟩

theorem expand_one {t : SrcTok L X} {o : OutTok L X} (h : t.expand = [o]) :
    (∀ c, o = .if_ c → ∃ d, t = .if_ d) ∧ (o = .else_ → t = .else_) ∧ (∀ c, o = .head c → ∃ d, t = .head d) ∧ (o = .do_ → t = .do_) ∧
    (∀ c, o = .until c → ∃ d, t = .until d) ∧ (o = .lb → t = .lb) ∧ (o = .rb → t = .rb) ∧ (∀ s, o = .simple s → ∃ x, t = .simple (.inl x)) := by
  cases t with
  | simple y =>
    cases y with
    | inl y => cases h; simp
    | inr m => cases m <;> cases h
  | _ => cases h; simp

theorem source_reads {b : Bool} {ts : List (SrcTok L X)} {t' : Tree (CondText L X) (ExprText L X)} {r' : List (OutTok L X)}
    (h : Reads b (preprocess ts) t' r') : ∃ t r, Reads b ts t r ∧ r' = preprocess r := by
  generalize hu : preprocess ts = u at h
  induction h generalizing ts with
  | simple s r =>
    rcases first_of hu with ⟨x, rest, rfl, e, rfl⟩ | ⟨m, rest, c, x, rfl, e, _⟩
    · obtain ⟨y, rfl⟩ := (expand_one e).2.2.2.2.2.2.2 _ rfl
      exact ⟨_, _, .simple _ _, rfl⟩
    · cases e
  | @block us r b h ih =>
    rcases first_of hu with ⟨x, rest, rfl, e, rfl⟩ | ⟨m, rest, c, x, rfl, e, _⟩
    · obtain rfl := (expand_one e).2.2.2.2.2.1 rfl
      obtain ⟨t, q, h1, h2⟩ := ih rfl
      rcases first_of h2.symm with ⟨x, rest2, rfl, e, rfl⟩ | ⟨m, rest, c, x, rfl, e, _⟩
      · obtain rfl := (expand_one e).2.2.2.2.2.2.1 rfl
        exact ⟨_, _, .block h1, rfl⟩
      · cases e
    · cases e
  | @ite c us r t h hn ih =>
    rcases first_of hu with ⟨x, rest, rfl, e, rfl⟩ | ⟨m, rest, c, x, rfl, e, rfl⟩
    · obtain ⟨d, rfl⟩ := (expand_one e).1 _ rfl
      obtain ⟨t, q, h1, rfl⟩ := ih rfl
      exact ⟨_, _, .ite d h1 (fun e => hn ((preprocess_head _).1.2 e)), rfl⟩
    · have := C99_unique h (.block (.nil _ (.inr rfl)))
      rw [this.2] at hn
      exact absurd rfl hn
  | @itee c us us' r t e' h he ih ihe =>
    rcases first_of hu with ⟨x, rest, rfl, e, rfl⟩ | ⟨m, rest, c, x, rfl, e, rfl⟩
    · obtain ⟨d, rfl⟩ := (expand_one e).1 _ rfl
      obtain ⟨t, q, h1, h2⟩ := ih rfl
      rcases first_of h2.symm with ⟨x, rest2, rfl, e, rfl⟩ | ⟨m, rest, c, x, rfl, e, _⟩
      · obtain rfl := (expand_one e).2.1 rfl
        obtain ⟨t2, q2, h3, rfl⟩ := ihe rfl
        exact ⟨_, _, .itee d h1 h3, rfl⟩
      · cases e
    · have := (C99_unique h (.block (.nil _ (.inr rfl)))).2
      cases this
      cases he
      exact ⟨_, _, .simple _ _, rfl⟩
  | @loop c us r t h ih =>
    rcases first_of hu with ⟨x, rest, rfl, e, rfl⟩ | ⟨m, rest, c, x, rfl, e, rfl⟩
    · obtain ⟨d, rfl⟩ := (expand_one e).2.2.1 _ rfl
      obtain ⟨t, q, h1, rfl⟩ := ih rfl
      exact ⟨_, _, .loop d h1, rfl⟩
    · cases e
  | @doWhile us r t c h ih =>
    rcases first_of hu with ⟨x, rest, rfl, e, rfl⟩ | ⟨m, rest, c, x, rfl, e, rfl⟩
    · obtain rfl := (expand_one e).2.2.2.1 rfl
      obtain ⟨t, q, h1, h2⟩ := ih rfl
      rcases first_of h2.symm with ⟨x, rest2, rfl, e, rfl⟩ | ⟨m, rest, c, x, rfl, e, _⟩
      · obtain ⟨d, rfl⟩ := (expand_one e).2.2.2.2.1 _ rfl
        exact ⟨_, _, .doWhile d h1, rfl⟩
      · cases e
    · cases e
  | nil r hr =>
    subst hu
    refine ⟨_, _, .nil ts ?_, rfl⟩
    rcases hr with hr | hr
    · exact .inl (preprocess_nil hr)
    · exact .inr ((preprocess_head _).2.1.1 hr)
  | cons h1 h2 ih1 ih2 =>
    obtain ⟨t, q, g1, rfl⟩ := ih1 hu
    obtain ⟨t2, q2, g2, rfl⟩ := ih2 rfl
    exact ⟨_, _, .cons g1 g2, rfl⟩

/-- C99: the compiler accepts the structure of a program exactly if it is right as written. -/
theorem C99_accepted (ts : List (SrcTok L X)) : (∃ t', Reads true (preprocess ts) t' []) ↔ ∃ t, Reads true ts t [] := by
  constructor
  · rintro ⟨t', h⟩
    obtain ⟨t, r, h1, h2⟩ := source_reads h
    rw [preprocess_nil h2.symm] at h1
    exact ⟨t, h1⟩
  · rintro ⟨t, h⟩
    exact ⟨_, reads_preprocess h⟩

/-- `if (0) LOG(1) << 2; else 3;`: the `else` is that of the `if` of the program. -/
example : Reads true ([.if_ 0, .simple (.inr (.log 1 2)), .else_, .simple (.inl 3)] : List (SrcTok Nat Nat))
    (.cons (.itee 0 (.simple (.inr (.log 1 2))) (.simple (.inl 3))) .nil) [] :=
  .cons (.itee _ (.simple _ _) (.simple _ _)) (.nil _ (.inl rfl))

/-- A macro without its own `else` would take that of the program: `if (0) if (1) 2; else 3;`. -/
example : ¬ Reads true ([.if_ 0, .if_ 1, .simple 2, .else_, .simple 3] : List (Tok Nat Nat))
    (.cons (.itee 0 (.ite 1 (.simple 2)) (.simple 3)) .nil) [] := by
  intro h
  have : Reads true ([.if_ 0, .if_ 1, .simple 2, .else_, .simple 3] : List (Tok Nat Nat))
      (.cons (.ite 0 (.itee 1 (.simple 2) (.simple 3))) .nil) [] :=
    .cons (.ite _ (.itee _ (.simple _ _) (.simple _ _)) (by simp)) (.nil _ (.inl rfl))
  exact absurd (C99_unique h this).1 (by simp)

end G3.Props
