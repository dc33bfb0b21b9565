import Verif.Model.MacroText
/-
The grammar of C++ statements ([stmt.pre], [stmt.if]) and what statements do; logging statements as single statements.
-/
namespace G3.Spec
open G3

/-- Syntax trees of statements; `nil` and `cons` are sequences. -/
inductive Tree (C S : Type)
  | simple (s : S)
  | block (b : Tree C S)
  | ite (c : C) (t : Tree C S)
  | itee (c : C) (t e : Tree C S)
  | loop (c : C) (t : Tree C S)
  | doWhile (t : Tree C S) (c : C)
  | nil
  | cons (t b : Tree C S)
deriving DecidableEq, Repr

/-- `Reads false ts t r`: `ts` begins with the statement `t`, followed by `r`. `Reads true ts t r`: it begins with the sequence `t` of statements, which
goes up to the end or a closing brace. An `else` belongs to the nearest `if` before it that can have one: an `if` has no `else` only if none follows. -/
inductive Reads {C S : Type} : Bool → List (Tok C S) → Tree C S → List (Tok C S) → Prop
  | simple (s : S) (r : List (Tok C S)) : Reads false (.simple s :: r) (.simple s) r
  | block {ts r : List (Tok C S)} {b : Tree C S} : Reads true ts b (.rb :: r) → Reads false (.lb :: ts) (.block b) r
  | ite (c : C) {ts r : List (Tok C S)} {t : Tree C S} : Reads false ts t r → r.head? ≠ some .else_ → Reads false (.if_ c :: ts) (.ite c t) r
  | itee (c : C) {ts ts' r : List (Tok C S)} {t e : Tree C S} : Reads false ts t (.else_ :: ts') → Reads false ts' e r →
      Reads false (.if_ c :: ts) (.itee c t e) r
  | loop (c : C) {ts r : List (Tok C S)} {t : Tree C S} : Reads false ts t r → Reads false (.head c :: ts) (.loop c t) r
  | doWhile {ts r : List (Tok C S)} {t : Tree C S} (c : C) : Reads false ts t (.until c :: r) → Reads false (.do_ :: ts) (.doWhile t c) r
  | nil (r : List (Tok C S)) : r = [] ∨ r.head? = some .rb → Reads true r .nil r
  | cons {ts r r' : List (Tok C S)} {t b : Tree C S} : Reads false ts t r → Reads true r b r' → Reads true ts (.cons t b) r'

/-- What statements do (for those that go on with the next one: no `break`, `return`, exception). A `loop` is a `while`. -/
inductive Exec {C S σ : Type} (test : C → σ → Bool × σ) (act : S → σ → σ) : Tree C S → σ → σ → Prop
  | simple (a : S) (s : σ) : Exec test act (.simple a) s (act a s)
  | block {b : Tree C S} {s s' : σ} : Exec test act b s s' → Exec test act (.block b) s s'
  | iteT {c : C} {t : Tree C S} {s s' : σ} : (test c s).1 = true → Exec test act t (test c s).2 s' → Exec test act (.ite c t) s s'
  | iteF {c : C} {t : Tree C S} {s : σ} : (test c s).1 = false → Exec test act (.ite c t) s (test c s).2
  | iteeT {c : C} {t e : Tree C S} {s s' : σ} : (test c s).1 = true → Exec test act t (test c s).2 s' → Exec test act (.itee c t e) s s'
  | iteeF {c : C} {t e : Tree C S} {s s' : σ} : (test c s).1 = false → Exec test act e (test c s).2 s' → Exec test act (.itee c t e) s s'
  | loopT {c : C} {t : Tree C S} {s s1 s' : σ} : (test c s).1 = true → Exec test act t (test c s).2 s1 → Exec test act (.loop c t) s1 s' →
      Exec test act (.loop c t) s s'
  | loopF {c : C} {t : Tree C S} {s : σ} : (test c s).1 = false → Exec test act (.loop c t) s (test c s).2
  | doT {c : C} {t : Tree C S} {s s1 s' : σ} : Exec test act t s s1 → (test c s1).1 = true → Exec test act (.doWhile t c) (test c s1).2 s' →
      Exec test act (.doWhile t c) s s'
  | doF {c : C} {t : Tree C S} {s s1 : σ} : Exec test act t s s1 → (test c s1).1 = false → Exec test act (.doWhile t c) s (test c s1).2
  | nil (s : σ) : Exec test act .nil s s
  | cons {t b : Tree C S} {s s1 s' : σ} : Exec test act t s s1 → Exec test act b s1 s' → Exec test act (.cons t b) s s'

variable {L X W : Type}

/-- A logging statement as a single statement. -/
def MacroCall.does (μ : Meaning L X W) : MacroCall L X → MState W → MState W
  | .log l x, s | .logF l x, s =>
    let first := μ.level l s
    let on := testLevel first.1 first.2
    if on.1 then
      let second := μ.level l on.2
      emit second.1 [] (μ.text x) second.2
    else on.2
  | .logIf l c x, s | .logIfF l c x, s =>
    let first := μ.level l s
    let on := testLevel first.1 first.2
    if on.1 then
      let b := μ.cond c on.2
      if b.1 ≠ 0 then
        let second := μ.level l b.2
        emit second.1 [] (μ.text x) second.2
      else b.2
    else on.2
  | .check c x, s | .checkF c x, s | .check_F c x, s =>
    let b := μ.cond c s
    if b.1 = 1 then b.2 else emit CONTRACT (μ.spell c) (μ.text x) b.2

/-- The conditions of a program as written. -/
def srcTest (μ : Meaning L X W) (c : X) (s : MState W) : Bool × MState W := (decide ((μ.cond c s).1 ≠ 0), (μ.cond c s).2)

/-- The simple statements of a program as written. -/
def srcAct (μ : Meaning L X W) : X ⊕ MacroCall L X → MState W → MState W
  | .inl x => μ.act x
  | .inr m => MacroCall.does μ m

end G3.Spec
