import Verif.Model.FileErrors
/- When the current file of a sink has met with a write error. -/
namespace G3.Spec
open G3

/-- Whether, after a history, a transfer to the current file has failed. `N` is the flush interval, `n` the number of
entries so far, `b` whether there was such an error before. Entries are transferred whenever their number is a
multiple of `N`; a successful change of file starts with a clean slate. -/
def broken (N : Nat) (b : Bool) (n : Nat) : List (SinkOp × IOOut) → Bool
  | [] => b
  | (.write _ _, r) :: l => broken N (b || (decide (N ∣ n + 1) && decide (r ≠ .ok))) (n + 1) l
  | (.change _ _ _ _ _ true, _) :: l => broken N false n l
  | (.spill _, r) :: l => broken N (b || decide (r ≠ .ok)) n l
  | _ :: l => broken N b n l

/-- Two histories that differ only in what is logged: messages, time texts, formatters and headers. The
outcomes of the transfers agree, and neither changes the file successfully. -/
inductive Alike : SinkOp × IOOut → SinkOp × IOOut → Prop
  | write (m m' : LogMessage) (t t' : Str) (r : IOOut) : Alike (.write m t, r) (.write m' t', r)
  | change (d d' i i' n n' nt nt' ht ht' : Str) (r r' : IOOut) :
    Alike (.change d i n nt ht false, r) (.change d' i' n' nt' ht' false, r')
  | details (f f' : DetailsFn) (r r' : IOOut) : Alike (.overrideDetails f, r) (.overrideDetails f', r')
  | header (h h' : Str) (r r' : IOOut) : Alike (.overrideHeader h, r) (.overrideHeader h', r')
  | name (r r' : IOOut) : Alike (.fileName, r) (.fileName, r')
  | spill (n : Nat) (r : IOOut) : Alike (.spill n, r) (.spill n, r)

end G3.Spec
