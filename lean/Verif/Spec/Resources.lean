import Verif.Model.Resources
/- C103: what the calls are for. -/
namespace G3.Spec

/-- What clients can see: is there a worker, the sinks it has, the handles, the number of sinks given to `addSink`, what has been received. -/
structure Ideal where
  worker : Bool
  sinks : List Nat
  handles : List Nat
  made : Nat
  got : List (Nat × Str)

/-- The meaning of each call. -/
def Ideal.step (a : Ideal) : ROp → Ideal
  | .create => { a with worker := true }
  | .add => { a with sinks := a.sinks ++ [a.made], handles := a.handles ++ [a.made], made := a.made + 1 }
  | .remove i => { a with sinks := a.sinks.erase i, handles := a.handles.erase i }
  | .removeAll => { a with sinks := [] }
  | .destroy => { a with worker := false, sinks := [] }
  | .log t _ => { a with got := a.got ++ a.sinks.map fun i => (i, t) }

/-- The order in which clients use it: a worker at a time; `removeSink` takes a handle. -/
def Ideal.can (a : Ideal) : ROp → Bool
  | .create => !a.worker
  | .remove i => a.worker && decide (i ∈ a.handles)
  | _ => a.worker

/-- A program. -/
def Ideal.run (a : Ideal) : List ROp → Ideal
  | [] => a
  | o :: ops => if a.can o then (a.step o).run ops else a.run ops

/-- What can be seen of a state. -/
def scSeen (s : ScState) : Ideal := ⟨s.worker, s.att, s.handles, s.made, s.got⟩

/-- All requests succeed. -/
def Plenty (σ : Supply) : Prop := ∀ n, σ.ok n = true

/-- Request `j` is the only one that fails. -/
def OnlyFails (σ : Supply) (j : Nat) : Prop := ∀ n, σ.ok n = !decide (n = j)

/-- Nothing has leaked: the sinks that exist are those of the worker; each of them has a thread, the worker has one, there is no other; each sink of a client that is
not attached has been destroyed, once. -/
def NoLeak (s : ScState) : Prop :=
  s.live = s.att ∧ s.threads = (if s.worker then 1 else 0) + s.att.length ∧ (s.gone ++ s.att).Perm (List.range s.made) ∧ (s.worker = false → s.att = [])

/-- How a call ends if nothing is missing: only LOG with an argument that throws throws. -/
def ROp.normal : ROp → ROut
  | .log _ true => .threw .user
  | _ => .ok

/-- The calls of a program. -/
def Ideal.ends (a : Ideal) : List ROp → List ROut
  | [] => []
  | o :: ops => if a.can o then ROp.normal o :: (a.step o).ends ops else a.ends ops

end G3.Spec
