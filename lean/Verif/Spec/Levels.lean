import Verif.Model.Levels
/-
Specifications for the level registry.

`Simple`: what the documentation promises: a partial map from level value to on/off.
`Exact`: what the code does for every history, including LOG at levels that were never registered.
-/
namespace G3.Spec
open G3

/-! ### The documented behaviour -/

/-- For each level value: not registered, or registered and on/off. -/
abbrev SState := Int → Option Bool

/-- Only DEBUG(100), INFO(300), WARNING(500) and FATAL(1000), all on. -/
def sInit : SState := fun k => if k = 100 ∨ k = 300 ∨ k = 500 ∨ k = 1000 then some true else none

/-- Effect of a call on the documented state. -/
def sStep (σ : SState) : LevelOp → SState
  | .add l b => fun k => if k = l.value then some b else σ k
  | .add1 l => fun k => if k = l.value then some true else σ k
  | .reset => sInit
  | .setHighest l => fun k => if σ l.value = none then σ k else (σ k).map fun _ => decide (l.value ≤ k)
  | .set l b => fun k => if k = l.value then (σ k).map fun _ => b else σ k
  | .disable l => fun k => if k = l.value then (σ k).map fun _ => false else σ k
  | .enable l => fun k => if k = l.value then (σ k).map fun _ => true else σ k
  | .disableAll => fun k => (σ k).map fun _ => false
  | .enableAll => fun k => (σ k).map fun _ => true
  | .getStatus _ => σ
  | .logLevel _ => σ

/-- How a documented status is reported. -/
def sStatus : Option Bool → LevelStatus
  | none => .absent
  | some true => .enabled
  | some false => .disabled

/-- Result of a call. -/
def sOut (σ : SState) : LevelOp → LevelOut
  | .getStatus l => .status (sStatus (σ l.value))
  | .logLevel l => .bool (decide (σ l.value = some true))
  | _ => .unit

/-- Outputs and final state of a history. -/
def sRun (σ : SState) : List LevelOp → List LevelOut × SState
  | [] => ([], σ)
  | o :: os => let (outs, σ') := sRun (sStep σ o) os; (sOut σ o :: outs, σ')

/-- The header's demand (loglevels.hpp:68-69): LOG is only used with levels that are registered. -/
def Documented (σ : SState) : List LevelOp → Prop
  | [] => True
  | o :: os => (∀ l, o = .logLevel l → σ l.value ≠ none) ∧ Documented (sStep σ o) os

/-! ### The exact behaviour -/

/-- An entry; `ghost` marks entries that exist only because LOG was used with an unregistered level. -/
structure Entry where
  on : Bool
  name : Str
  ghost : Bool
deriving DecidableEq

/-- For each level value: what is recorded about it. -/
abbrev EState := Int → Option Entry

/-- The text of a level up to its first NUL character. -/
def visible (s : Str) : Str := s.takeWhile (fun c => decide (c ≠ Char.ofNat 0))

/-- The default levels. -/
def eInit : EState := fun k =>
  if k = 100 then some ⟨true, "DEBUG".toList, false⟩
  else if k = 300 then some ⟨true, "INFO".toList, false⟩
  else if k = 500 then some ⟨true, "WARNING".toList, false⟩
  else if k = 1000 then some ⟨true, "FATAL".toList, false⟩
  else none

/-- Turn a known level (registered or ghost) into a regular entry. -/
def eSet (σ : EState) (l : Level) (b : Bool) : EState := fun k =>
  if k = l.value then (σ k).map fun _ => ⟨b, visible l.text, false⟩ else σ k

/-- Is there a ghost entry at all? -/
def hasGhost (σ : EState) : Prop := ∃ j e, σ j = some e ∧ e.ghost = true

/-- Is there a ghost entry with value at least `t`? -/
def ghostFrom (σ : EState) (t : Int) : Prop := ∃ j e, σ j = some e ∧ e.ghost = true ∧ t ≤ j

open Classical in
/-- `setHighest(t)`: ghosts keep their status; INFO (300) is also switched on by a ghost at or above the
threshold, and is renamed `INFO` if there is any ghost; every other level is on iff its value is at
least `t`. -/
noncomputable def eHighest (σ : EState) (t : Int) : EState := fun k =>
  (σ k).map fun e =>
    if k = 300 then
      ⟨decide (t ≤ 300 ∨ ghostFrom σ t), if hasGhost σ then "INFO".toList else e.name, false⟩
    else if e.ghost then e
    else { e with on := decide (t ≤ k) }

open Classical in
/-- Effect of a call on the exact state. -/
noncomputable def eStep (σ : EState) : LevelOp → EState
  | .add l b => fun k => if k = l.value then some ⟨b, visible l.text, false⟩ else σ k
  | .add1 l => fun k => if k = l.value then some ⟨true, visible l.text, false⟩ else σ k
  | .reset => eInit
  | .setHighest l => if σ l.value = none then σ else eHighest σ l.value
  | .set l b => eSet σ l b
  | .disable l => eSet σ l false
  | .enable l => eSet σ l true
  | .disableAll => fun k => (σ k).map fun e => { e with on := false }
  | .enableAll => fun k => (σ k).map fun e => { e with on := true }
  | .getStatus _ => σ
  | .logLevel l => fun k => if k = l.value ∧ σ k = none then some ⟨false, "INFO".toList, true⟩ else σ k

/-- Result of a call. -/
def eOut (σ : EState) : LevelOp → LevelOut
  | .getStatus l => .status (sStatus ((σ l.value).map Entry.on))
  | .logLevel l => .bool (decide ((σ l.value).map Entry.on = some true))
  | _ => .unit

/-- Outputs and final state of a history. -/
noncomputable def eRun (σ : EState) : List LevelOp → List LevelOut × EState
  | [] => ([], σ)
  | o :: os => let (outs, σ') := eRun (eStep σ o) os; (eOut σ o :: outs, σ')

end G3.Spec
