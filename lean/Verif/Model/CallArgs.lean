import Verif.Model.Str
/-!
# The arguments of a call through a sink handle

`SinkHandle::call`, /repo/src/g3log/sinkhandle.hpp:35-50, hands its arguments by `std::forward` to
`internal::Sink::async`, /repo/src/g3log/sink.hpp:70-73, which stores them with `std::bind` in the task for the thread of the sink
(`spawn_task`, /repo/src/g3log/future.hpp:43-60). `std::bind` stores a *decayed copy* of each argument: an object is copied or moved, but an
array becomes a pointer to its first element, and `std::ref` stays a reference. When the task runs, the stored values are passed on as lvalues.

Simplifications: what an argument designates is one cell with a text as content (a `std::string`, a number, the characters of a `char[]`); that a
`const char*` is converted to the parameter type `std::string` when the task runs, or read by the method itself, makes no difference here. Arguments
that are themselves results of `std::bind` are left out (they would be evaluated when the task runs). The queue of the sink is first in, first out (C01, C93).
-/
namespace G3

/-- The memory of the program: contents of the live objects. -/
abbrev Cells := Nat → Option Str

/-- An argument as the program writes it: the name of an object, a temporary, `std::move` of an object, a string literal, a pointer to
an object, an array, `std::ref` of an object. /repo/src/g3log/sinkhandle.hpp:39 (`Args&&... args`). -/
inductive ArgForm
  | object (a : Nat)
  | temp (v : Str)
  | moved (a : Nat)
  | literal (v : Str)
  | pointer (a : Nat)
  | array (a : Nat)
  | ref (a : Nat)

/-- What `std::bind` keeps, /repo/src/g3log/sink.hpp:72: an object of its own or an address. A string literal has static storage and cannot change. -/
inductive Kept
  | own (v : Str)
  | addr (a : Nat)

/-- `std::bind(…, std::forward<Args>(args)...)` for one argument, /repo/src/g3log/sink.hpp:72. `none`: the program uses an object that
does not exist, which is a mistake before anything reaches the library (pointers may be copied in any case). -/
def keepArg (mem : Cells) : ArgForm → Option Kept
  | .object a => (mem a).map .own
  | .temp v => some (.own v)
  | .moved a => (mem a).map .own
  | .literal v => some (.own v)
  | .pointer a => some (.addr a)
  | .array a => if (mem a).isSome then some (.addr a) else none
  | .ref a => if (mem a).isSome then some (.addr a) else none

/-- What is left behind in the caller's object: moving takes the content, /repo/src/g3log/sinkhandle.hpp:42 (`std::forward`). `hollow` is the content of a
moved-from object (unspecified by the standard). -/
def leaveArg (hollow : Str → Str) (mem : Cells) : ArgForm → Cells
  | .moved a => fun b => if b = a then (mem a).map hollow else mem b
  | _ => mem

/-- All arguments. The order in which they are stored is not specified; it makes no difference as long as an object that is moved is not
used by another argument of the same call, which the model takes for granted. /repo/src/g3log/sink.hpp:72. -/
def keepArgs (hollow : Str → Str) (mem : Cells) (args : List ArgForm) : Option (List Kept × Cells) :=
  (args.mapM (keepArg mem)).map fun ks => (ks, args.foldl (leaveArg hollow) mem)

/-- Reading a stored argument when the task runs. `none`: the object is gone. /repo/src/g3log/future.hpp:54 (`packaged_task`), sink.hpp:72. -/
def readKept (mem : Cells) : Kept → Option Str
  | .own v => some v
  | .addr a => mem a

/-- What the method writes to its arguments (parameters that are references or pointers): objects that belong to the task are gone with the
task, others change in the memory of the program. /repo/src/g3log/sink.hpp:72. -/
def writeKept (mem : Cells) : List Kept → List Str → Cells
  | .addr a :: ks, v :: vs => writeKept (fun b => if b = a then some v else mem b) ks vs
  | .own _ :: ks, _ :: vs => writeKept mem ks vs
  | _, _ => mem

/-- A method of the sink: from the contents of its arguments to their contents afterwards and the result. -/
abbrev SinkMethod := List Str → List Str × Str

/-- What a call led to: the method got these arguments and returned this; or it used an object that no longer exists. -/
inductive CallEnd
  | done (got : List Str) (result : Str)
  | dangling
deriving DecidableEq

/-- The future that `call` returned: filled by the thread of the sink, or with `bad_weak_ptr` from the start (sinkhandle.hpp:43-48). -/
inductive CallFuture
  | task (no : Nat)
  | badWeakPtr
deriving DecidableEq

structure CallState where
  mem : Cells
  expired : Bool
  /-- tasks not run yet, with the number of the accepted call -/
  queue : List (Nat × SinkMethod × List Kept)
  /-- accepted calls so far -/
  accepted : Nat
  /-- futures returned, in order of the calls -/
  futures : List CallFuture
  /-- tasks that have run -/
  ended : List (Nat × CallEnd)
  /-- a task used an object that no longer exists -/
  broken : Bool

def CallState.start (mem : Cells) : CallState := ⟨mem, false, [], 0, [], [], false⟩

inductive CallLabel
  /-- the program creates an object, gives it a new content, or destroys it (`none`) -/
  | set (a : Nat) (v : Option Str)
  /-- `handle->call(&Sink::method, args...)` -/
  | call (f : SinkMethod) (args : List ArgForm)
  /-- the sink is removed: its last owner has let it go; the tasks in the queue are still run (/repo/src/g3log/active.hpp:50-53) -/
  | expire
  /-- the thread of the sink runs the next task -/
  | exec
  /-- some thread waits for a future and gets its value: possible as soon as the task has run -/
  | get (no : Nat)

/-- `SinkHandle::call`, /repo/src/g3log/sinkhandle.hpp:39-49. -/
def handleCall (hollow : Str → Str) (s : CallState) (f : SinkMethod) (args : List ArgForm) : Option CallState :=
  if s.expired then some { s with futures := s.futures ++ [.badWeakPtr] }
  else (keepArgs hollow s.mem args).map fun (ks, mem') =>
    { s with mem := mem', queue := s.queue ++ [(s.accepted, f, ks)], accepted := s.accepted + 1, futures := s.futures ++ [.task s.accepted] }

/-- The thread of the sink runs a task: /repo/src/g3log/active.hpp:37-43, sink.hpp:72. -/
def runTask (s : CallState) (no : Nat) (f : SinkMethod) (ks : List Kept) : CallState :=
  match ks.mapM (readKept s.mem) with
  | some vs => { s with mem := writeKept s.mem ks (f vs).1, ended := s.ended ++ [(no, .done vs (f vs).2)] }
  | none => { s with ended := s.ended ++ [(no, .dangling)], broken := true }

def callStep (hollow : Str → Str) (s : CallState) (l : CallLabel) : Option CallState :=
  if s.broken then none else
  match l with
  | .set a v => some { s with mem := fun b => if b = a then v else s.mem b }
  | .call f args => handleCall hollow s f args
  | .expire => some { s with expired := true }
  | .exec =>
    match s.queue with
    | [] => none
    | (no, f, ks) :: q => some (runTask { s with queue := q } no f ks)
  | .get no => if s.ended.any (fun e => e.1 == no) then some s else none

def callRun (hollow : Str → Str) (s : CallState) : List CallLabel → Option CallState
  | [] => some s
  | l :: ls => (callStep hollow s l).bind (callRun hollow · ls)

end G3
