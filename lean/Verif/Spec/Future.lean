/-
Calls executed one after the other.
-/
namespace G3.Spec

variable {S E R : Type}

/-- The object after the calls. -/
def after (o : S) (fs : List (S → Except E R × S)) : S := fs.foldl (fun o f => (f o).2) o

/-- The result of call number j when the calls are executed in order. -/
def outcome (o : S) (fs : List (S → Except E R × S)) (j : Nat) : Option (Except E R) := (fs[j]?).map fun f => (f (after o (fs.take j))).1

end G3.Spec
