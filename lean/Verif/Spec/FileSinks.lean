import Verif.Model.FileSinks
/- Which file names a sink has used, as far as its users can see (`FileSink::fileName`). -/
namespace G3.Spec
open G3

/-- Sink `k` has had the file `p` at some moment of the history. -/
def Used (E : Env) (fs : FS) (tr : List (Nat × SinksOp)) (k : Nat) (p : Str) : Prop :=
  ∃ l1 l2 st s, tr = l1 ++ l2 ∧ sinksRun E (sinksInit fs) l1 = some st ∧ st.sink k = some s ∧ s.path = p

/-- The part of the history that concerns sink `k`. -/
def ofSink (k : Nat) (tr : List (Nat × SinksOp)) : List (Nat × SinksOp) := tr.filter (fun x => x.1 = k)

end G3.Spec
