/-
Model of `g3::MoveOnCopy<Moveable>`, /repo/src/g3log/moveoncopy.hpp:17-49. `P` is the type of payloads. A wrapper whose
payload has been moved away holds `none` (a null unique_ptr, an empty packaged_task). The move operations
of the payload types themselves (std::unique_ptr, std::packaged_task) are trusted to transfer the payload, also when an
object is assigned to itself.
-/
namespace G3
variable {P : Type}

/-- The wrappers created so far (by number); `none` for one already destroyed. `out` are payloads handed out by
`release`, `gone` those that were overwritten by an assignment or destroyed with their wrapper. -/
structure MocState (P : Type) where
  cells : List (Option (Option P))
  out : List P
  gone : List P

/-- Operations on wrappers; `i`, `j` are numbers of existing wrappers. -/
inductive MOp (P : Type)
  | make (p : P)
  | copy (i : Nat)
  | move (i : Nat)
  | copyAssign (i j : Nat)   -- wrapper i = wrapper j
  | moveAssign (i j : Nat)
  | get (i : Nat)
  | release (i : Nat)
  | destroy (i : Nat)

/-- No wrapper. -/
def MocState.start : MocState P := { cells := [], out := [], gone := [] }

/-- What a wrapper holds; outer `none`: no such wrapper. -/
def MocState.at (s : MocState P) (i : Nat) : Option (Option P) := (s.cells[i]?).join

/-- moveoncopy.hpp:23-26: both constructors move the payload out of the source. -/
def MocState.transfer (s : MocState P) (i : Nat) : Option (MocState P) :=
  match s.at i with
  | none => none
  | some v => some { s with cells := s.cells.set i (some none) ++ [some v] }

/-- moveoncopy.hpp:28-36: both assignments move the payload; what the target held before is dropped. -/
def MocState.assign (s : MocState P) (i j : Nat) : Option (MocState P) :=
  match s.at i, s.at j with
  | some old, some v =>
    if i = j then some s
    else some { s with cells := (s.cells.set j (some none)).set i (some v), gone := s.gone ++ old.toList }
  | _, _ => none

/-- One operation; `none` if it names a wrapper that does not exist. -/
def MocState.step (s : MocState P) : MOp P → Option (MocState P)
  | .make p => some { s with cells := s.cells ++ [some (some p)] }          -- :21-22
  | .copy i => s.transfer i
  | .move i => s.transfer i
  | .copyAssign i j => s.assign i j
  | .moveAssign i j => s.assign i j
  | .get i => match s.at i with | none => none | some _ => some s           -- :42-44
  | .release i =>                                                           -- :46-48
    match s.at i with
    | none => none
    | some v => some { s with cells := s.cells.set i (some none), out := s.out ++ v.toList }
  | .destroy i =>
    match s.at i with
    | none => none
    | some v => some { s with cells := s.cells.set i none, gone := s.gone ++ v.toList }

/-- A sequence of operations. -/
def MocState.run (s : MocState P) : List (MOp P) → Option (MocState P)
  | [] => some s
  | o :: os => (s.step o).bind (MocState.run · os)

end G3
