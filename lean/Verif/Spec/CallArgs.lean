import Verif.Model.CallArgs
/-
What a user of a sink handle has in mind: the call is made at once, with the arguments as they are, and only its result comes later. This
specification knows no queue and no task.
-/
namespace G3.Spec

/-- What the argument means where it is written. -/
def designated (mem : Nat → Option Str) : ArgForm → Option Str
  | .temp v | .literal v => some v
  | .object a | .moved a | .pointer a | .array a | .ref a => mem a

/-- The object of the program that the argument leads to. -/
def behind : ArgForm → Option Nat
  | .pointer a | .array a | .ref a => some a
  | _ => none

/-- The object that is moved. -/
def movedFrom : ArgForm → Option Nat
  | .moved a => some a
  | _ => none

/-- An argument that is a value. -/
def isValue (x : ArgForm) : Prop := behind x = none

/-- The call is written in a way that its effect does not depend on the order of evaluation. -/
def orderly (args : List ArgForm) : Prop := (args.filterMap movedFrom).Nodup

/-- The program with calls that are made at once. -/
structure Direct where
  mem : Nat → Option Str
  gone : Bool := false
  /-- what the calls returned: `none` for `bad_weak_ptr`, otherwise a future for the result of this number -/
  answers : List (Option Nat) := []
  /-- arguments and result of each call that reached the sink -/
  calls : List (List Str × Str) := []

def Direct.step (hollow : Str → Str) (d : Direct) : CallLabel → Direct
  | .set a v => { d with mem := fun b => if b = a then v else d.mem b }
  | .expire => { d with gone := true }
  | .exec | .get _ => d
  | .call f args =>
    if d.gone then { d with answers := d.answers ++ [none] }
    else match args.mapM (designated d.mem) with
      | none => d
      | some vs =>
        { d with mem := fun b => if b ∈ args.filterMap movedFrom then (d.mem b).map hollow else d.mem b,
                 answers := d.answers ++ [some d.calls.length], calls := d.calls ++ [(vs, (f vs).2)] }

def Direct.run (hollow : Str → Str) (d : Direct) (ls : List CallLabel) : Direct := ls.foldl (Direct.step hollow) d

/-- How often the thread of the sink has run a task. -/
def execs : List CallLabel → Nat
  | [] => 0
  | .exec :: ls => execs ls + 1
  | _ :: ls => execs ls

/-- Every call of the program passes values only. -/
def ValuesOnly (ls : List CallLabel) : Prop := ∀ f args, .call f args ∈ ls → (∀ x ∈ args, isValue x) ∧ orderly args

/-- The program does not change, destroy or move the object. -/
def LetsAlone (a : Nat) : CallLabel → Prop
  | .set b _ => b ≠ a
  | .call _ args => ∀ x ∈ args, movedFrom x ≠ some a
  | _ => True

/-- No call of the program leads to the object. -/
def NotPassed (a : Nat) (ls : List CallLabel) : Prop := ∀ f args, .call f args ∈ ls → ∀ x ∈ args, behind x ≠ some a

/-- What the method finds, if the memory is `before` at the call and `later` when it runs. -/
def found (before later : Nat → Option Str) (x : ArgForm) : Option Str :=
  match behind x with
  | some a => later a
  | none => designated before x

/-- How a call ends that finds this. -/
def endsWith (f : SinkMethod) : Option (List Str) → CallEnd
  | some vs => .done vs (f vs).2
  | none => .dangling

/-- What the program holds after the call. -/
def answer : Option Nat → CallFuture
  | none => .badWeakPtr
  | some i => .task i

end G3.Spec
