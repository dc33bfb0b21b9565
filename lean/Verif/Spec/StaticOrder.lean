import Verif.Model.StaticOrder
/-
Specification for C101: what a call needs of the library, and which calls are allowed to need it.
-/
namespace G3.Spec
open G3

/-- What calls have done to the library so far, whatever the order of construction. -/
structure Lib where
  levels : Registry
  front : Front

/-- Will LOG at this level do anything? -/
def Lib.wants (σ : Lib) (c : SEnv) (l : Level) : Prop := c.dyn = true → (logLevel l σ.levels).1 = true

/-- LOG with a working library. A level that is asked for the first time is registered by being asked for. -/
def Lib.log (c : SEnv) (σ : Lib) (m : LogMessage) (t : Str) (n : Int) : Lib × List Eff × Stat :=
  let levels := if c.dyn then (logLevel m.level σ.levels).2 else σ.levels
  if c.dyn = true ∧ (logLevel m.level σ.levels).1 = false then (⟨levels, σ.front⟩, [], .ok)
  else
    let r := fStep c.env c.src c.depth σ.front (if 1000 ≤ m.level.value then .fatal m t n else .log m)
    (⟨levels, r.1⟩, r.2)

/-- A call with a working library. Shutting down on behalf of a worker that is not the active one is refused with a warning. -/
def Lib.call (c : SEnv) (σ : Lib) : SOp → Lib × List Eff × Stat
  | .log m t n => σ.log c m t n
  | .init w => let r := fStep c.env c.src c.depth σ.front (.init w); (⟨σ.levels, r.1⟩, r.2)
  | .shutdown => (⟨σ.levels, { σ.front with inst := none }⟩, [], .ok)
  | .shutdownActive m w =>
    match σ.front.inst, w with
    | some a, some b => if a = b then (⟨σ.levels, { σ.front with inst := none }⟩, [], .ok) else σ.log c m [] 6
    | _, _ => (⟨σ.levels, { σ.front with inst := none }⟩, [], .ok)
  | .setHook h => (⟨σ.levels, { σ.front with hook := some h }⟩, [], .ok)
  | .setHandler h => (⟨σ.levels, { σ.front with handler := h }⟩, [], .ok)
  | .level o => (⟨if c.dyn then (levelStep σ.levels o).2 else σ.levels, σ.front⟩, [], .ok)

/-- Calls one after the other, until the process ends. -/
def Lib.calls (c : SEnv) (σ : Lib) : List SOp → Lib × List Eff × Stat
  | [] => (σ, [], .ok)
  | o :: r =>
    let a := σ.call c o
    if a.2.2.goesOn then let b := Lib.calls c a.1 r; (b.1, a.2.1 ++ b.2.1, b.2.2) else a

/-- Objects of which source file a call uses. -/
inductive Uses (c : SEnv) (σ : Lib) : SOp → LibFile → Prop
  | logs {m t n} : Uses c σ (.log m t n) .loglevels
  | hook {m t n} : σ.wants c m.level → 1000 ≤ m.level.value → Uses c σ (.log m t n) .g3log
  | dies {m t n u} : σ.wants c m.level → 1000 ≤ m.level.value → u = .logmessage ∨ u = .crashhandler →
      (∃ k, (σ.log c m t n).2.2 = .exitSignal k) ∨ (σ.log c m t n).2.2 = .blocked → Uses c σ (.log m t n) u
  | installs {w} : σ.front.installed = false → Uses c σ (.init w) .crashhandler
  | inits {w} : σ.front.inst = none → Uses c σ (.init (some w)) .g3log
  | warns {m a b} : σ.front.inst = some a → a ≠ b → Uses c σ (.shutdownActive m (some b)) .g3log
  | warning {m a b u} : σ.front.inst = some a → a ≠ b → Uses c σ (.log m [] 6) u → Uses c σ (.shutdownActive m (some b)) u
  | setHook {h} : Uses c σ (.setHook h) .g3log
  | setHandler {h} : Uses c σ (.setHandler h) .g3log
  | level {o} : c.dyn = true → Uses c σ (.level o) .loglevels

/-- The calls of a program in the order they are made, each with the source files of the library that come before its object in the order of
construction. Objects enclose what is constructed after them. -/
def callsWith (main : List SOp) : List LibFile → List Start → List (List LibFile × SOp)
  | seen, [] => main.map (seen, ·)
  | seen, .lib u :: r => callsWith main (u :: seen) r
  | seen, .obj ctor dtor :: r => ctor.map (seen, ·) ++ callsWith main seen r ++ dtor.map (seen, ·)

/-- All calls of a program in the order they are made: constructors, `main`, destructors in the opposite order. -/
def callOrder (p : SProg) : List SOp :=
  p.startup.flatMap (fun | .obj ctor _ => ctor | .lib _ => []) ++ p.main ++
    p.startup.reverse.flatMap (fun | .obj _ dtor => dtor | .lib _ => [])

/-- The source files of the library in the start-up list. -/
def libsOf : List Start → List LibFile
  | [] => []
  | .lib u :: r => u :: libsOf r
  | .obj _ _ :: r => libsOf r

/-- Every source file of the library is in the list once. -/
def Linked (p : SProg) : Prop := (libsOf p.startup).Nodup ∧ ∀ u, u ∈ libsOf p.startup

/-- Some call needs objects that are constructed later than the caller, or, in a destructor, are destroyed earlier. -/
def TooEarly (c : SEnv) (p : SProg) : Prop :=
  ∃ pre seen o post, callsWith p.main [] p.startup = pre ++ (seen, o) :: post ∧
    (Lib.calls c ⟨defaultLevels, Front.start⟩ (pre.map Prod.snd)).2.2.goesOn = true ∧
    ∃ u, Uses c (Lib.calls c ⟨defaultLevels, Front.start⟩ (pre.map Prod.snd)).1 o u ∧ u ∉ seen

end G3.Spec
